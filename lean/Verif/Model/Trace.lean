import Verif.Model.Py

/-!
# The numpyro sites of a model run (`models.py`, `effects/`)

A run of a model is followed through the sites it announces to numpyro: random variables
(`numpyro.sample`), recorded values (`numpyro.deterministic`) and plates (`numpyro.plate`, whose
constructor announces a site too).  Distributions and values are left out here; `Model/Mean.lean`
has the values.
-/

namespace PV

/-- What a site is. `observed` is `numpyro.sample(..., obs=value)`.
(`models.py` 54-86, 117-124, 253, 263, `effects/linear.py` 67.) -/
inductive SiteKind where
  | latent
  | observed
  | deterministic
  | plate
  deriving DecidableEq, Repr

/-- `numpyro.sample`, with or without observation. (`models.py` 117, 120.) -/
def SiteKind.isSample : SiteKind → Bool
  | .latent | .observed => true
  | .deterministic | .plate => false

/-- One site, as announced. (`models.py` 54-86, 117-124, 253, 263.) -/
structure Site where
  kind : SiteKind
  name : String
  deriving DecidableEq, Repr

/-- `numpyro.handlers.scope(prefix=p)` renames every site inside, plates included. (`models.py` 261.) -/
def Site.scope (p : String) (s : Site) : Site := { s with name := p ++ "/" ++ s.name }

/-! ## Sites of the trends and effects -/

/-- `PiecewiseLinearTrend._predict` (`effects/trend/piecewise.py` 181-189). -/
def piecewiseSites : List Site := [⟨.latent, "offset"⟩, ⟨.latent, "changepoint_coefficients"⟩]
/-- `PiecewiseLogisticTrend._predict` (`effects/trend/piecewise.py` 552-555). -/
def logisticSites : List Site := ⟨.plate, "series"⟩ :: ⟨.latent, "capacity"⟩ :: piecewiseSites
/-- `FlatTrend._predict` (`effects/trend/flat.py` 83-84). -/
def flatSites : List Site := [⟨.latent, "trend_flat_coefficient"⟩]
/-- `LinearEffect._predict` (`effects/linear.py` 67-68); `LinearFourierSeasonality` runs an inner
linear effect without a scope of its own (`effects/fourier.py` 149-151). -/
def linearSites : List Site := [⟨.plate, "features_plate"⟩, ⟨.latent, "coefs"⟩]
/-- `LogEffect._predict` (`effects/log.py` 63-64). -/
def logSites : List Site := [⟨.latent, "log_scale"⟩, ⟨.latent, "log_rate"⟩]
/-- `HillEffect._predict` (`effects/hill.py` 67-69). -/
def hillSites : List Site := [⟨.latent, "half_max"⟩, ⟨.latent, "slope"⟩, ⟨.latent, "max_effect"⟩]
/-- `LiftExperimentLikelihood._predict` (`effects/lift_experiment.py` 131-141): the inner effect,
without a scope of its own, and then the observed lifts. -/
def liftSites (inner : List Site) : List Site := inner ++ [⟨.observed, "lift_experiment"⟩]

/-! ## Sites of the models -/

/-- `y` is an array while fitting and `None` while predicting.
(`sktime/multivariate.py` 294, 343, `sktime/univariate.py` 298, 340.) -/
def obsKind (fitting : Bool) : SiteKind := if fitting then .observed else .latent

/-- After the mean, in `univariate_model`, `univariate_gamma_model` and
`univariate_negbinomial_model` (`models.py` 117-124, 157-164, 200-207). -/
def univariateObsSites (fitting : Bool) : List Site :=
  [⟨.latent, "noise_scale"⟩, ⟨.plate, "data"⟩, ⟨obsKind fitting, "obs"⟩]

/-- After the mean, in `multivariate_model` (`models.py` 51-86). -/
def multivariateObsSites (single fitting : Bool) : List Site :=
  ⟨.latent, "std_observation"⟩ ::
    ((if single then [] else [⟨.latent, "corr_matrix"⟩]) ++
      [⟨.plate, "time"⟩, ⟨obsKind fitting, "obs"⟩])

/-- A whole model: the trend outside any scope, then each effect inside the scope of its name,
followed by the recorded contribution (`models.py` 248-266), then the likelihood.  `effects`:
the items of the dictionary `exogenous_effects`, with the sites each effect announces. -/
def modelSites (trend : List Site) (effects : PyDict (List Site)) (obs : List Site) : List Site :=
  trend ++ ⟨.deterministic, "trend"⟩ ::
    (effects.flatMap fun e => e.2.map (Site.scope e.1) ++ [⟨.deterministic, e.1⟩]) ++ obs

/-! ## What numpyro records -/

/-- `numpyro.handlers.trace`: an `AssertionError` if a *sample* site has the name of a site
already there; any other site overwrites. numpyro, reached through `engine.py` 135, 281. -/
def recordSite (t : PyDict SiteKind) (s : Site) : PyM (PyDict SiteKind) :=
  if s.kind.isSample ∧ s.name ∈ t.keys then .error .assertionError else .ok (t.set s.name s.kind)

/-- The trace of a run that announces these sites. numpyro, reached through `engine.py` 135, 281. -/
def runTrace (l : List Site) : PyM (PyDict SiteKind) := l.foldlM recordSite []

/-- The unknowns of the model: the sites for which a guide or a sampler keeps values.
numpyro: `engine.py` 130, 281, read at `sktime/base.py` 270. -/
def latentNames (t : PyDict SiteKind) : List String :=
  (t.filter fun p => p.2 = .latent).map Prod.fst

/-- What `numpyro.infer.Predictive` returns when it is given values for the sites `known`: the
other random variables, and the recorded values. numpyro: `engine.py` 190-197, 315-319. -/
def returnedNames (known : List String) (t : PyDict SiteKind) : List String :=
  (t.filter fun p => (p.2.isSample && p.1 ∉ known) || p.2 = .deterministic).map Prod.fst

end PV
