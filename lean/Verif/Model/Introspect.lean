import Verif.Model.Config

/-!
# Looking at a fitted model (`sktime/base.py` 669-722)
-/

namespace PV

/-- Keys of the dictionary returned by `_get_fit_data` (`sktime/univariate.py` 285-304,
`sktime/multivariate.py` 285-298). -/
def fitDataKeys : ForecasterKind → List String
  | .univariate =>
    ["y", "data", "trend_data", "trend_model", "noise_scale", "scale", "exogenous_effects"]
  | .hierarchical =>
    ["y", "data", "trend_data", "trend_model", "exogenous_effects",
     "correlation_matrix_concentration", "noise_scale", "is_single_series"]

/-- `data.get("distributions", {})` (`sktime/base.py` 245) and `var_names`
(`sktime/base.py` 669-679); `value key`: what the dictionary holds under a key, as the keys of a
dictionary. -/
def varNames (kind : ForecasterKind) (value : String → List String) : List String :=
  if "distributions" ∈ fitDataKeys kind then value "distributions" else []

/-- Attributes of an engine after `infer` (`engine.py` 39-43, 97-114, 130-151, 239-253, 289-298). -/
def engineAttributes : EngineKind → List String
  | .map => ["model", "rng_key", "optimizer_factory", "num_steps", "num_samples", "guide_",
      "run_results_", "posterior_samples_"]
  | .mcmc => ["model", "rng_key", "num_samples", "num_warmup", "num_chains", "dense_mass",
      "posterior_samples_"]

/-- Attributes of an engine after `predict` (`engine.py` 190-198, 313-320): MAP stores the draws on
the module `numpyro`. -/
def engineAttributesPredicted (k : EngineKind) : List String :=
  match k with
  | .map => engineAttributes .map
  | .mcmc => engineAttributes .mcmc ++ ["samples_predictive_"]

/-- `plot_trace` (`sktime/base.py` 681-711) as far as the access to `inference_engine_.mcmc_`;
`plot`: the figure. -/
def plotTrace {F : Type} (attributes : List String) (plot : F) : PyM F :=
  if "mcmc_" ∈ attributes then .ok plot else .error .attributeError

/-- `site_names` (`sktime/base.py` 713-722). -/
def siteNames {α : Type} (posterior : PyDict α) : List String := PyDict.keys posterior

end PV
