import Mathlib.Analysis.SpecialFunctions.Gamma.Basic
import Verif.Model.Effects
import Verif.Model.Lift
import Verif.Model.Likelihood
import Verif.Model.Logistic
import Verif.Model.TrendEffects

/-!
# The log density of a model run (`models.py`, `effects/`)

What inference works on: the sum of the log probabilities of the `numpyro.sample` statements
executed by the model, for given values of the unobserved sites (`AutoDelta` with `Trace_ELBO`
maximises it, NUTS samples from it).  Real numbers, not floating point.  The distributions of
numpyro are their textbook log densities; `numpyro.plate` without subsampling contributes no factor.
That all sites have different names is the subject of `Model/Trace.lean`.
-/

namespace PV

/-! ## Distributions of numpyro -/

/-- `dist.Normal(loc, scale).log_prob(x)`.
numpyro; used at `models.py` 59, 122, `effects/trend/piecewise.py` 183, `effects/lift_experiment.py`
139. -/
noncomputable def normalLP (loc scale x : ℝ) : ℝ :=
  -((x - loc) ^ 2 / (2 * scale ^ 2)) - Real.log scale - Real.log (2 * Real.pi) / 2

/-- `dist.Laplace(loc, scale).log_prob(x)`. numpyro; used at `effects/trend/piecewise.py` 188. -/
noncomputable def laplaceLP (loc scale x : ℝ) : ℝ := -(|x - loc| / scale) - Real.log (2 * scale)

/-- `dist.HalfNormal(scale).log_prob(x)` on its support. numpyro; used at `models.py` 55, 64, 117, 157, 200. -/
noncomputable def halfNormalLP (scale x : ℝ) : ℝ := Real.log 2 + normalLP 0 scale x

/-- `dist.Gamma(concentration, rate).log_prob(x)` on its support.
numpyro; used at `effects/trend/flat.py` 85, `distributions.py` 42, `effects/log.py` 37-38. -/
noncomputable def gammaLP (concentration rate x : ℝ) : ℝ :=
  concentration * Real.log rate + (concentration - 1) * Real.log x - rate * x
    - Real.log (Real.Gamma concentration)

/-- `dist.NegativeBinomial2(mean, concentration).log_prob(x)`: a Gamma-Poisson distribution with
rate `concentration / mean`. Used at `models.py` 205. -/
noncomputable def negBinomial2LP (mean concentration x : ℝ) : ℝ :=
  let rate := concentration / mean
  Real.log (Real.Gamma (concentration + x)) - Real.log (Real.Gamma concentration)
    - Real.log (Real.Gamma (x + 1)) + concentration * Real.log (rate / (1 + rate))
    - x * Real.log (1 + rate)

/-- `log_prob` of the distribution of one observation. (`models.py` 120-124, 160-164, 203-207.) -/
noncomputable def ObsDist.logProb : ObsDist → ℝ → ℝ
  | .normal loc scale => normalLP loc scale
  | .gamma p => gammaLP p.concentration p.rate
  | .negBinomial2 mean concentration => negBinomial2LP mean concentration

/-! ## Sample statements -/

/-- One `numpyro.sample` statement as executed: name, the log density of every entry, and the
values (drawn, or given as `obs`).
(All calls of `numpyro.sample` in `models.py` and `effects/`; the observed ones are `models.py` 59, 82,
120, 160, 203 and `effects/lift_experiment.py` 137.) -/
structure Stmt where
  name : String
  dists : List (ℝ → ℝ)
  values : List ℝ

/-- `fn.log_prob(value).sum()`. numpyro; summed in `Trace_ELBO` (`engine.py` 135). -/
noncomputable def Stmt.logProb (s : Stmt) : ℝ := (List.zipWith (fun d v => d v) s.dists s.values).sum

/-- `numpyro.handlers.scope(prefix=p)`. (`models.py` 261.) -/
def Stmt.scope (p : String) (s : Stmt) : Stmt := { s with name := p ++ "/" ++ s.name }

/-- `numpyro.infer.util.log_density`: the sum over all statements.
numpyro; what `engine.py` 135 and 281 work on. -/
noncomputable def logDensity (l : List Stmt) : ℝ := (l.map Stmt.logProb).sum

/-- `numpyro.sample(name, dist)` without observation.  The value of a site always has the size of
its distribution; values of another size are refused here.
(`models.py` 117, `effects/trend/piecewise.py` 181, 186, `effects/linear.py` 68 and others.) -/
def sampleSite (θ : SiteEnv ℝ) (name : String) (dists : List (ℝ → ℝ)) : PyM Stmt :=
  if (θ name).data.length = dists.length then .ok ⟨name, dists, (θ name).data⟩
  else .error .valueError

/-- `numpyro.sample(name, dist, obs=values)`; arrays of equal size. (`models.py` 59, 82, 120, 160, 203.) -/
def observeSite (name : String) (dists : List (ℝ → ℝ)) (values : List ℝ) : PyM Stmt :=
  if values.length = dists.length then .ok ⟨name, dists, values⟩ else .error .valueError

/-- The sample statements executed by a call `effect(data, predicted_effects)`. (`models.py` 250, 262.) -/
abbrev Priors (D : Type) := SiteEnv ℝ → D → PyDict (Tensor ℝ) → PyM (List Stmt)

/-! ## The statements of the trends and effects -/

/-- `LinearEffect._predict` (`effects/linear.py` 65-68): one value per feature. -/
def linearPriors (prior : ℝ → ℝ) : Priors (Transformed (Tensor ℝ)) := fun θ data _ => do
  let d ← data.array
  let c ← sampleSite θ "coefs" (List.replicate (d.shape.getLastD 0) prior)
  pure [c]

/-- `prior or dist.Normal(0, 0.1)` (`effects/linear.py` 39). -/
noncomputable def linearPriorOr (prior : Option (ℝ → ℝ)) : ℝ → ℝ := prior.getD (normalLP 0 0.1)

/-- `LogEffect._predict` (`effects/log.py` 63-64). -/
def logPriors (scalePrior ratePrior : ℝ → ℝ) : Priors (Transformed (Tensor ℝ)) := fun θ _ _ => do
  let s ← sampleSite θ "log_scale" [scalePrior]
  let r ← sampleSite θ "log_rate" [ratePrior]
  pure [s, r]

/-- `HillEffect._predict` (`effects/hill.py` 67-69). -/
def hillPriors (halfMaxPrior slopePrior maxEffectPrior : ℝ → ℝ) :
    Priors (Transformed (Tensor ℝ)) := fun θ _ _ => do
  let h ← sampleSite θ "half_max" [halfMaxPrior]
  let s ← sampleSite θ "slope" [slopePrior]
  let m ← sampleSite θ "max_effect" [maxEffectPrior]
  pure [h, s, m]

/-- `LiftExperimentLikelihood._predict` (`effects/lift_experiment.py` 131-141): the statements of
the inner effect, and the lifts, observed where the mask is true. -/
noncomputable def Lift.priors {S Y τ V D : Type} (l : Lift S Y τ V D ℝ) (inner : Priors (Transformed D)) :
    Priors (LiftData D ℝ) := fun θ data p => do
  let ss ← inner θ (.data data.inner) p
  let r ← l.predict θ data p
  let o ← observeSite "lift_experiment" (r.2.map fun q => normalLP q.1 l.priorScale) (r.2.map Prod.snd)
  pure (ss ++ [o])

section
variable {τ : Type}

/-- `PiecewiseLinearTrend._predict` (`effects/trend/piecewise.py` 181-189): location and scale
vectors of the changepoints have the same length (C43). -/
noncomputable def piecewisePriors (offsetScale : ℝ) (st : Option (PiecewiseState ℝ τ)) :
    Priors (Transformed (Tensor ℝ)) := fun θ _ _ =>
  match st with
  | none => .error .attributeError
  | some s => do
    let o ← sampleSite θ "offset" (s.offsetLoc.map fun m => normalLP m offsetScale)
    let c ← sampleSite θ "changepoint_coefficients" (List.zipWith laplaceLP s.priorLoc s.priorScale)
    pure [o, c]

/-- `PiecewiseLogisticTrend._predict` (`effects/trend/piecewise.py` 552-555): one capacity per
series, then the statements of the linear trend. -/
noncomputable def logisticPriors (capacityPrior : ℝ → ℝ) (offsetScale : ℝ)
    (st : Option (PiecewiseState ℝ τ)) : Priors (Transformed (Tensor ℝ)) := fun θ d p =>
  match st with
  | none => .error .attributeError
  | some s => do
    let c ← sampleSite θ "capacity" (List.replicate s.time.nSeries capacityPrior)
    let ss ← piecewisePriors offsetScale st θ d p
    pure (c :: ss)

/-- `FlatTrend._predict` (`effects/trend/flat.py` 76-89). -/
noncomputable def flatPriors (scale : ℝ) (st : Option ℝ) : Priors (Transformed (Tensor ℝ)) :=
  fun θ _ _ =>
  match st with
  | none => .error .attributeError
  | some loc => do
    let c ← sampleSite θ "trend_flat_coefficient"
      [gammaLP (flatPrior loc scale).1 (flatPrior loc scale).2]
    pure [c]

end

/-! ## The models -/

section
variable {D : Type}

/-- One turn of the loop of `_compute_mean_univariate` (`models.py` 259-265), with the statements
executed so far.  `pr n`: the statements of the effect called `n`. -/
def runStep (θ : SiteEnv ℝ) (data : PyDict D) (pr : String → Priors D)
    (st : MeanState ℝ × List Stmt) (e : String × EffectCall D ℝ) :
    PyM (MeanState ℝ × List Stmt) := do
  let d ← data.getItem e.1
  let ss ← pr e.1 (θ.scope e.1) d st.1.predicted
  let m ← meanStep θ data st.1 e
  pure (m, st.2 ++ ss.map (Stmt.scope e.1))

/-- `_compute_mean_univariate` (`models.py` 241-266), with the statements executed. -/
def runMean (trend : EffectCall D ℝ) (tp : Priors D) (trendData : D) (data : PyDict D)
    (effects : PyDict (EffectCall D ℝ)) (pr : String → Priors D) (θ : SiteEnv ℝ) :
    PyM (MeanState ℝ × List Stmt) := do
  let ss ← tp θ trendData []
  let t ← trend θ trendData []
  effects.foldlM (runStep θ data pr)
    ({ mean := t, sites := [("trend", t)], predicted := [("trend", t)] }, ss)

/-- The statements of `univariate_model`, `univariate_gamma_model`, `univariate_negbinomial_model`
after the mean (`models.py` 117-124, 157-164, 200-207), with an observed target. -/
noncomputable def obsStmts (lik : Likelihood) (noiseScale scale : ℝ) (y : List ℝ) (mean : Tensor ℝ)
    (θ : SiteEnv ℝ) : PyM (List Stmt) := do
  let n ← sampleSite θ "noise_scale" [halfNormalLP noiseScale]
  let o ← observeSite "obs"
    ((univariateObs lik (siteScalar θ "noise_scale") scale mean).map ObsDist.logProb) y
  pure [n, o]

/-- All statements of a univariate model with an observed target, in order. (`models.py` 89-207.) -/
noncomputable def modelStmts (lik : Likelihood) (noiseScale scale : ℝ) (y : List ℝ)
    (trend : EffectCall D ℝ) (tp : Priors D) (trendData : D) (data : PyDict D)
    (effects : PyDict (EffectCall D ℝ)) (pr : String → Priors D) (θ : SiteEnv ℝ) :
    PyM (List Stmt) := do
  let r ← runMean trend tp trendData data effects pr θ
  let os ← obsStmts lik noiseScale scale y r.1.mean θ
  pure (r.2 ++ os)

/-- The log density of a univariate model given the target. (`models.py` 89-207.) -/
noncomputable def logJoint (lik : Likelihood) (noiseScale scale : ℝ) (y : List ℝ)
    (trend : EffectCall D ℝ) (tp : Priors D) (trendData : D) (data : PyDict D)
    (effects : PyDict (EffectCall D ℝ)) (pr : String → Priors D) (θ : SiteEnv ℝ) : PyM ℝ :=
  (modelStmts lik noiseScale scale y trend tp trendData data effects pr θ).map logDensity

end
end PV
