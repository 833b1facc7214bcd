import Mathlib.Analysis.SpecialFunctions.Exp
import Verif.Model.Mean

/-!
# Observation distributions of the univariate models (`models.py` 89-238,
`distributions.py` 35-44)
-/

namespace PV

/-- `_to_positive` (`models.py` 210-238) for one entry. -/
noncomputable def toPositive (x smoothThreshold : ℝ) (threshold : ℝ := 1e-10) : ℝ :=
  max (if x < smoothThreshold then Real.exp (x - smoothThreshold) * smoothThreshold else x)
    threshold

/-- Parameters of `dist.Gamma`. (`distributions.py` 39-44.) -/
structure GammaParams where
  concentration : ℝ
  rate : ℝ

/-- `GammaReparametrized.__init__` (`distributions.py` 35-44). -/
noncomputable def gammaReparametrized (loc scale : ℝ) : GammaParams :=
  let rate := loc / scale ^ 2
  { concentration := loc * rate, rate := rate }

/-- The distribution of one observation. (`models.py` 122, 162, 205.) -/
inductive ObsDist where
  | normal (loc scale : ℝ)
  | gamma (p : GammaParams)
  /-- `NegativeBinomial2(mean, concentration)`. -/
  | negBinomial2 (mean concentration : ℝ)

/-- (`sktime/univariate.py` 25-29.) -/
inductive Likelihood where
  | normal | gamma | negbinomial
  deriving DecidableEq, Repr

/-- The distribution at the `obs` site of `univariate_model`, `univariate_gamma_model`,
`univariate_negbinomial_model` (`models.py` 110-124, 148-164, 189-207): `mean` from
`_compute_mean_univariate`, `noise` the value of the site `noise_scale`, `scale` the series
scale.  One distribution per entry of `mean.reshape((-1, 1))`. -/
noncomputable def univariateObs (lik : Likelihood) (noise scale : ℝ) (mean : Tensor ℝ) :
    List ObsDist :=
  match lik with
  | .normal => mean.data.map fun m => .normal m noise
  | .gamma => mean.data.map fun m => .gamma (gammaReparametrized (toPositive m 1e-5) noise)
  | .negbinomial =>
    mean.data.map fun m => .negBinomial2 (toPositive m 1e-5 * scale) (noise * scale)

end PV
