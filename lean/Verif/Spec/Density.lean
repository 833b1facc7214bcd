import Verif.Model.Density

/-!
# What the log density of the model should be
-/

namespace PV

/-- The log density of one observation `y` whose expected value is `m` (after scaling), with noise
parameter `σ`.  Gamma: mean `μ` and standard deviation `σ`; negative binomial: mean and
concentration in the unit of the counts. -/
noncomputable def obsLog (lik : Likelihood) (σ scale m y : ℝ) : ℝ :=
  match lik with
  | .normal => normalLP m σ y
  | .gamma => let μ := toPositive m 1e-5; gammaLP (μ ^ 2 / σ ^ 2) (μ / σ ^ 2) y
  | .negbinomial => negBinomial2LP (toPositive m 1e-5 * scale) (σ * scale) y

/-- The log prior of an effect object that executes the statements `pr`: a function of the values
of its sites, whatever the data. -/
def LogPrior {S Y Sc τ V D : Type} [DecidableEq τ] (e : EffectObj S Y Sc τ V D ℝ)
    (pr : Priors (Transformed D)) (q : SiteEnv ℝ → ℝ) : Prop :=
  ∀ θ x fh d p ss, e.transform (some x) fh = .ok d → pr θ d p = .ok ss → logDensity ss = q θ

end PV
