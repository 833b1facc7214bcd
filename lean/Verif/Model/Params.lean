import Mathlib.Algebra.Field.Basic
import Verif.Model.Py

/-!
# Constructors, `get_params`, `clone` and `set_params`

The constructors of the forecasters, effects, trends and the column expander at the level of
names: keyword arguments are bound to the signature, passed on through `super().__init__` and
stored as attributes.  `get_params`, `clone` and `set_params` are scikit-base's: the parameters of
an object are the names in the signature of its class, read as attributes; `clone` calls the class
with them; `set_params` sets attributes and calls `__init__` again.

Positional arguments are taken to be passed by keyword.  Checks of hyperparameters that compare
numbers are a parameter (`check`): any function of the attributes (`Verif.Model.Config` has the
checks themselves).  Copying of values (`clone` copies nested objects) is not visible here: values
are compared as values.
-/

namespace PV

/-- A Python value as far as constructors look at it.  `O`: distributions, effects, transformers,
tables, ... (all truthy). (`sktime/base.py` 818-862.) -/
inductive PVal (K O : Type) where
  | none
  | bool (b : Bool)
  | num (x : K)
  | str (s : String)
  | list (l : List (PVal K O))
  | obj (o : O)

/-- A signature: names with their defaults (`none`: required), and whether `**kwargs` follows.
(`__init__` in `sktime/base.py` 70-83, 818-838, `sktime/univariate.py` 150-173, `sktime/multivariate.py`
151-174 and in `effects/`.) -/
structure Signature (V : Type) where
  params : List (String × Option V)
  varKw : Bool

/-- The names of the parameters without `**kwargs`. (See `Signature`; `sktime/base.py` 818-838.) -/
def Signature.names {V : Type} (s : Signature V) : List String := s.params.map Prod.fst

/-- The value of one parameter: the argument, else the default, else `TypeError`.
Python; used by every call of a constructor, e.g. `sktime/base.py` 852-862. -/
def bindParam {V : Type} (args : PyDict V) (p : String × Option V) : PyM (String × V) :=
  match PyDict.get? args p.1 with
  | some v => .ok (p.1, v)
  | none =>
    match p.2 with
    | some v => .ok (p.1, v)
    | none => .error .typeError

/-- Binding keyword arguments to a signature: the named parameters and the content of `kwargs`.  A
name that is not in the signature is a `TypeError`, unless there is a `**kwargs`.
Python; used by every call of a constructor, e.g. `sktime/base.py` 852-862. -/
def bindArgs {V : Type} (s : Signature V) (args : PyDict V) : PyM (PyDict V × PyDict V) :=
  let extra := args.filter (fun a => a.1 ∉ s.names)
  if s.varKw = false ∧ extra ≠ [] then .error .typeError
  else do
    let b ← s.params.mapM (bindParam args)
    pure (b, extra)

/-- A class: the signature of `__init__` and its body (named arguments, `kwargs`), which gives the
attributes. (E.g. `sktime/base.py` 818-862.) -/
structure PyClass (V : Type) where
  sig : Signature V
  body : PyDict V → PyDict V → PyM (PyDict V)

section
variable {V : Type}

/-- `Class(**args)`. Python; e.g. `sktime/base.py` 1029-1034. -/
def PyClass.call (c : PyClass V) (args : PyDict V) : PyM (PyDict V) := do
  let (b, kw) ← bindArgs c.sig args
  c.body b kw

/-- `getattr(obj, name)`. Python; scikit-base reads the attributes set in `sktime/base.py` 85-93, 841-851. -/
def getAttr (attrs : PyDict V) (name : String) : PyM (String × V) :=
  match PyDict.get? attrs name with
  | some v => .ok (name, v)
  | none => .error .attributeError

/-- `obj.get_params(deep=False)`: scikit-base leaves out `**kwargs`.
scikit-base, on the constructors in `sktime/base.py` 70-94, 818-862. -/
def PyClass.getParams (c : PyClass V) (attrs : PyDict V) : PyM (PyDict V) :=
  c.sig.names.mapM (getAttr attrs)

/-- `obj.clone()`, also `obj.reset()`.
scikit-base; called at `sktime/base.py` 916, 953 and by sktime on forecasters. -/
def PyClass.clone (c : PyClass V) (attrs : PyDict V) : PyM (PyDict V) := do
  let p ← c.getParams attrs
  c.call p

/-- `obj.set_params(name=value)` for a parameter that is not nested: `ValueError` for a name that
is not a parameter, otherwise the attribute is set and the object is built again.
scikit-base, on the constructors in `sktime/base.py` 70-94, 818-862. -/
def PyClass.setParam (c : PyClass V) (attrs : PyDict V) (name : String) (v : V) : PyM (PyDict V) := do
  let _ ← c.getParams attrs
  if name ∈ c.sig.names then c.clone (PyDict.set attrs name v) else .error .valueError

end

section
variable {K O : Type}

/-- `bool(value)`. Python; used at `effects/linear.py` 39. -/
def PVal.truthy [Zero K] [DecidableEq K] : PVal K O → Bool
  | .none => false
  | .bool b => b
  | .num x => x ≠ 0
  | .str s => s ≠ ""
  | .list l => !l.isEmpty
  | .obj _ => true

/-- `a or b`. (`effects/linear.py` 39, `effects/log.py` 37-38, `effects/hill.py` 41-43.) -/
def PVal.or [Zero K] [DecidableEq K] (a b : PVal K O) : PVal K O := if a.truthy then a else b

/-- A bound argument (every name of the signature is bound). (E.g. `sktime/base.py` 841-851.) -/
def arg (b : PyDict (PVal K O)) (name : String) : PVal K O := (PyDict.get? b name).getD .none

/-- `super().__init__(name=name, ...)`: the arguments of these names passed on.
(`sktime/base.py` 852-862, `sktime/univariate.py` 180-202, `sktime/multivariate.py` 181-202.) -/
def pass (b : PyDict (PVal K O)) (names : List String) : PyDict (PVal K O) :=
  names.map fun n => (n, arg b n)

/-- `self.name = name` for these names. (`sktime/base.py` 85-93, 841-851.) -/
def store (b : PyDict (PVal K O)) (names : List String) : PyDict (PVal K O) := pass b names

/-! ## Forecasters -/

variable [Field K]

/-- `BaseBayesianForecaster.__init__` (`sktime/base.py` 70-94); `**kwargs` is ignored. -/
def bayesCtor : PyClass (PVal K O) where
  sig :=
    { params :=
        [("rng_key", some .none), ("inference_method", some (.str "map")),
         ("mcmc_samples", some (.num 2000)), ("mcmc_warmup", some (.num 200)),
         ("mcmc_chains", some (.num 4)), ("optimizer_steps", some (.num 100000)),
         ("optimizer_name", some (.str "Adam")), ("optimizer_kwargs", some .none),
         ("scale", some .none)]
      varKw := true }
  body b _ := .ok (store b ["rng_key", "mcmc_samples", "mcmc_warmup", "mcmc_chains",
    "inference_method", "optimizer_steps", "optimizer_name", "optimizer_kwargs", "scale"])

/-- `BaseProphetForecaster.__init__` (`sktime/base.py` 818-862). -/
def prophetBaseCtor : PyClass (PVal K O) where
  sig :=
    { params :=
        [("trend", some (.str "linear")), ("changepoint_interval", some (.num 25)),
         ("changepoint_range", some (.num (8 / 10))),
         ("changepoint_prior_scale", some (.num (1 / 1000))),
         ("offset_prior_scale", some (.num (1 / 10))),
         ("capacity_prior_scale", some (.num (2 / 10))),
         ("capacity_prior_loc", some (.num (11 / 10))), ("exogenous_effects", some .none),
         ("default_effect", some .none), ("rng_key", some .none),
         ("inference_method", some (.str "map")), ("mcmc_samples", some (.num 2000)),
         ("mcmc_warmup", some (.num 200)), ("mcmc_chains", some (.num 4)),
         ("optimizer_steps", some (.num 100000)), ("optimizer_name", some (.str "Adam")),
         ("optimizer_kwargs", some .none), ("scale", some .none)]
      varKw := false }
  body b _ := do
    let rest ← bayesCtor.call (pass b ["rng_key", "inference_method", "mcmc_samples",
      "mcmc_warmup", "mcmc_chains", "optimizer_steps", "optimizer_name", "optimizer_kwargs",
      "scale"])
    pure (store b ["trend", "changepoint_interval", "changepoint_range",
      "changepoint_prior_scale", "offset_prior_scale", "capacity_prior_scale",
      "capacity_prior_loc", "exogenous_effects", "default_effect"] ++ rest)

/-- `Prophetverse.__init__` (`sktime/univariate.py` 150-204). -/
def prophetverseCtor (check : PyDict (PVal K O) → PyM Unit) : PyClass (PVal K O) where
  sig :=
    { params :=
        [("trend", some (.str "linear")), ("changepoint_interval", some (.num 25)),
         ("changepoint_range", some (.num (8 / 10))),
         ("changepoint_prior_scale", some (.num (1 / 1000))),
         ("offset_prior_scale", some (.num (1 / 10))),
         ("capacity_prior_scale", some (.num (2 / 10))),
         ("capacity_prior_loc", some (.num (11 / 10))), ("exogenous_effects", some .none),
         ("default_effect", some .none), ("feature_transformer", some .none),
         ("noise_scale", some (.num (5 / 100))), ("mcmc_samples", some (.num 2000)),
         ("mcmc_warmup", some (.num 200)), ("mcmc_chains", some (.num 4)),
         ("inference_method", some (.str "map")), ("optimizer_name", some (.str "Adam")),
         ("optimizer_kwargs", some .none), ("optimizer_steps", some (.num 100000)),
         ("likelihood", some (.str "normal")), ("scale", some .none), ("rng_key", some .none)]
      varKw := false }
  body b _ := do
    let rest ← prophetBaseCtor.call (pass b ["rng_key", "trend", "changepoint_interval",
      "changepoint_range", "changepoint_prior_scale", "offset_prior_scale",
      "capacity_prior_scale", "capacity_prior_loc", "default_effect", "exogenous_effects",
      "inference_method", "mcmc_samples", "mcmc_warmup", "mcmc_chains", "optimizer_name",
      "optimizer_kwargs", "optimizer_steps", "scale"])
    let attrs := store b ["noise_scale", "feature_transformer", "likelihood"] ++ rest
    check attrs
    pure attrs

/-- `Prophet.__init__`, `ProphetGamma.__init__` and `ProphetNegBinomial.__init__`
(`sktime/univariate.py` 497-543, 625-671, 753-799), which differ in the likelihood. -/
def subclassCtor (likelihood : String) (check : PyDict (PVal K O) → PyM Unit) :
    PyClass (PVal K O) where
  sig :=
    { params :=
        [("changepoint_interval", some (.num 25)), ("changepoint_range", some (.num (8 / 10))),
         ("changepoint_prior_scale", some (.num (1 / 1000))),
         ("offset_prior_scale", some (.num (1 / 10))), ("feature_transformer", some .none),
         ("capacity_prior_scale", some (.num (2 / 10))),
         ("capacity_prior_loc", some (.num (11 / 10))), ("noise_scale", some (.num (5 / 100))),
         ("trend", some (.str "logistic")), ("mcmc_samples", some (.num 2000)),
         ("mcmc_warmup", some (.num 200)), ("mcmc_chains", some (.num 4)),
         ("inference_method", some (.str "map")), ("optimizer_name", some (.str "Adam")),
         ("optimizer_kwargs", some .none), ("optimizer_steps", some (.num 100000)),
         ("exogenous_effects", some .none), ("default_effect", some .none),
         ("scale", some .none), ("rng_key", some .none)]
      varKw := false }
  body b _ := (prophetverseCtor check).call
    (pass b ["changepoint_interval", "changepoint_range", "changepoint_prior_scale",
      "offset_prior_scale", "feature_transformer", "capacity_prior_scale", "capacity_prior_loc",
      "noise_scale", "trend", "mcmc_samples", "mcmc_warmup", "mcmc_chains", "inference_method",
      "optimizer_name", "optimizer_kwargs", "optimizer_steps", "exogenous_effects",
      "default_effect", "scale", "rng_key"] ++ [("likelihood", .str likelihood)])

/-- `HierarchicalProphet.__init__` (`sktime/multivariate.py` 151-205); the attribute `model` is
left out. -/
def hierarchicalCtor (check : PyDict (PVal K O) → PyM Unit) : PyClass (PVal K O) where
  sig :=
    { params :=
        [("trend", some (.str "linear")), ("changepoint_interval", some (.num 25)),
         ("changepoint_range", some (.num (8 / 10))),
         ("changepoint_prior_scale", some (.num (1 / 1000))),
         ("offset_prior_scale", some (.num (1 / 10))),
         ("capacity_prior_scale", some (.num (2 / 10))),
         ("capacity_prior_loc", some (.num (11 / 10))), ("feature_transformer", some .none),
         ("exogenous_effects", some .none), ("default_effect", some .none),
         ("shared_features", some .none), ("mcmc_samples", some (.num 2000)),
         ("mcmc_warmup", some (.num 200)), ("mcmc_chains", some (.num 4)),
         ("inference_method", some (.str "map")), ("optimizer_name", some (.str "Adam")),
         ("optimizer_kwargs", some .none), ("optimizer_steps", some (.num 100000)),
         ("noise_scale", some (.num (5 / 100))),
         ("correlation_matrix_concentration", some (.num 1)), ("rng_key", some .none)]
      varKw := false }
  body b _ := do
    let rest ← prophetBaseCtor.call (pass b ["trend", "changepoint_interval",
      "changepoint_range", "changepoint_prior_scale", "offset_prior_scale",
      "capacity_prior_scale", "capacity_prior_loc", "default_effect", "exogenous_effects",
      "rng_key", "inference_method", "optimizer_name", "optimizer_kwargs", "optimizer_steps",
      "mcmc_samples", "mcmc_warmup", "mcmc_chains"])
    let attrs := store b ["noise_scale", "shared_features", "feature_transformer",
      "correlation_matrix_concentration"] ++ rest
    check attrs
    pure attrs

/-! ## Effects and trends -/

/-- `BaseEffect.__init__` (`effects/base.py` 85-87). -/
def baseEffectAttrs : PyDict (PVal K O) :=
  [("_input_feature_column_names", .list []), ("_is_fitted", .bool false)]

/-- `BaseAdditiveOrMultiplicativeEffect.__init__` (`effects/base.py` 335-345). -/
def modeEffectInit (mode : PVal K O) : PyM (PyDict (PVal K O)) :=
  match mode with
  | .str s =>
    if s = "additive" ∨ s = "multiplicative" then .ok (("effect_mode", .str s) :: baseEffectAttrs)
    else .error .valueError
  | _ => .error .valueError

variable [DecidableEq K]

/-- `LinearEffect.__init__` (`effects/linear.py` 34-41); `normal`: `dist.Normal(0, 0.1)`. -/
def linearCtor (normal : O) : PyClass (PVal K O) where
  sig :=
    { params := [("effect_mode", some (.str "multiplicative")), ("prior", some .none)]
      varKw := false }
  body b _ := do
    let base ← modeEffectInit (arg b "effect_mode")
    pure (("prior", (arg b "prior").or (.obj normal)) :: base)

/-- `LogEffect.__init__` (`effects/log.py` 31-39); `gamma`: `dist.Gamma(1, 1)`. -/
def logCtor (gamma : O) : PyClass (PVal K O) where
  sig :=
    { params := [("effect_mode", some (.str "multiplicative")), ("scale_prior", some .none),
        ("rate_prior", some .none)]
      varKw := false }
  body b _ := do
    let base ← modeEffectInit (arg b "effect_mode")
    pure ([("scale_prior", (arg b "scale_prior").or (.obj gamma)),
      ("rate_prior", (arg b "rate_prior").or (.obj gamma))] ++ base)

/-- `HillEffect.__init__` (`effects/hill.py` 34-45); `gamma`: `dist.Gamma(1, 1)`, `halfNormal`:
`dist.HalfNormal(10)`. -/
def hillCtor (gamma halfNormal : O) : PyClass (PVal K O) where
  sig :=
    { params := [("effect_mode", some (.str "multiplicative")), ("half_max_prior", some .none),
        ("slope_prior", some .none), ("max_effect_prior", some .none)]
      varKw := false }
  body b _ := do
    let base ← modeEffectInit (arg b "effect_mode")
    pure ([("half_max_prior", (arg b "half_max_prior").or (.obj gamma)),
      ("slope_prior", (arg b "slope_prior").or (.obj halfNormal)),
      ("max_effect_prior", (arg b "max_effect_prior").or (.obj gamma))] ++ base)

/-- `LinearFourierSeasonality.__init__` (`effects/fourier.py` 45-58), which does not call
`super().__init__`. -/
def fourierCtor : PyClass (PVal K O) where
  sig :=
    { params := [("sp_list", none), ("fourier_terms_list", none), ("freq", none),
        ("prior_scale", some (.num 1)), ("effect_mode", some (.str "additive"))]
      varKw := false }
  body b _ := .ok (store b ["sp_list", "fourier_terms_list", "freq", "prior_scale",
    "effect_mode"] ++ [("expand_column_per_level_", .none)])

/-- `LiftExperimentLikelihood.__init__` (`effects/lift_experiment.py` 36-49). -/
def liftCtor (check : PyDict (PVal K O) → PyM Unit) : PyClass (PVal K O) where
  sig :=
    { params := [("effect", none), ("lift_test_results", none), ("prior_scale", none)]
      varKw := false }
  body b _ := do
    let attrs := store b ["effect", "lift_test_results", "prior_scale"]
    check attrs
    pure (attrs ++ baseEffectAttrs)

/-- `FlatTrend.__init__` (`effects/trend/flat.py` 24-26). -/
def flatCtor : PyClass (PVal K O) where
  sig := { params := [("changepoint_prior_scale", some (.num (1 / 10)))], varKw := false }
  body b _ := .ok (store b ["changepoint_prior_scale"] ++ baseEffectAttrs)

/-- `PiecewiseLinearTrend.__init__` (`effects/trend/piecewise.py` 58-76); `**kwargs` is ignored. -/
def piecewiseCtor : PyClass (PVal K O) where
  sig :=
    { params := [("changepoint_interval", none), ("changepoint_range", none),
        ("changepoint_prior_scale", none), ("offset_prior_scale", some (.num (1 / 10))),
        ("squeeze_if_single_series", some (.bool true)),
        ("remove_seasonality_before_suggesting_initial_vals", some (.bool true))]
      varKw := true }
  body b _ := .ok (store b ["changepoint_interval", "changepoint_range",
    "changepoint_prior_scale", "offset_prior_scale", "squeeze_if_single_series",
    "remove_seasonality_before_suggesting_initial_vals"] ++ baseEffectAttrs)

/-- `PiecewiseLogisticTrend.__init__` (`effects/trend/piecewise.py` 471-496); `capacity`: the
default prior of the capacity. -/
def logisticCtor (capacity : O) : PyClass (PVal K O) where
  sig :=
    { params := [("changepoint_interval", none), ("changepoint_range", none),
        ("changepoint_prior_scale", none), ("offset_prior_scale", some (.num 10)),
        ("capacity_prior", some .none)]
      varKw := true }
  body b kw := do
    let prior : PVal K O := match arg b "capacity_prior" with
      | .none => .obj capacity
      | p => p
    let rest ← piecewiseCtor.call (pass b ["changepoint_interval", "changepoint_range",
      "changepoint_prior_scale", "offset_prior_scale"] ++ kw)
    pure (("capacity_prior", prior) :: rest)

/-- `ExpandColumnPerLevel.__init__` (`sktime/_expand_column_per_level.py` 38-40). -/
def expandCtor : PyClass (PVal K O) where
  sig := { params := [("columns_regex", none)], varKw := false }
  body b _ := .ok (store b ["columns_regex"])

end
end PV
