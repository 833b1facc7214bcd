import Mathlib.LinearAlgebra.Matrix.NonsingularInverse
import Verif.Model.Density
import Verif.Model.Multivariate

/-!
# The log density of the hierarchical model (`models.py` 13-86)
-/

namespace PV
open Matrix

/-- `dist.MultivariateNormal(loc, scale_tril=S).log_prob(x)` of numpyro: with `z` the solution of
`S z = x - loc`, minus half the squared length of `z`, minus the logarithms of the diagonal of `S`
and the constant. Used at `models.py` 84. -/
noncomputable def mvnLP {n : Nat} (loc : Fin n → ℝ) (S : Matrix (Fin n) (Fin n) ℝ) (x : Fin n → ℝ) :
    ℝ :=
  -((S⁻¹ *ᵥ (x - loc)) ⬝ᵥ (S⁻¹ *ᵥ (x - loc))) / 2
    - ((∑ i, Real.log (S i i)) + n * Real.log (2 * Real.pi) / 2)

/-- Row `j` of an array with `n` columns. (`models.py` 49, 84.) -/
def rowOf (t : Tensor ℝ) (n j : Nat) : Fin n → ℝ := fun i => (t.get? [j, i]).getD 0

/-- A square array as a matrix. (`models.py` 67-77.) -/
def matrixOf (t : Tensor ℝ) (n : Nat) : Matrix (Fin n) (Fin n) ℝ := fun i j => (t.get? [i, j]).getD 0

/-- A one-dimensional array as a vector. (`models.py` 63-65.) -/
def vectorOf (t : Tensor ℝ) (n : Nat) : Fin n → ℝ := fun i => t.data.getD i 0

/-- The statements of `multivariate_model` after the mean (`models.py` 48-86), with an observed
target, and their log density.  `lkj n c` is the log density of `dist.LKJCholesky(n, c)`.  The plate
is not subsampled, so it adds no factor. -/
noncomputable def panelObsLog (lkj : Nat → ℝ → Tensor ℝ → ℝ) (noiseScale concentration : ℝ)
    (single : Bool) (y mean : Tensor ℝ) (θ : SiteEnv ℝ) : PyM ℝ := do
  let ol ← multivariateObs single y mean
  if single then do
    let s ← sampleSite θ "std_observation" [halfNormalLP noiseScale]
    let o ← observeSite "obs"
      (ol.2.data.map fun m => normalLP m (siteScalar θ "std_observation")) ol.1.data
    pure (logDensity [s, o])
  else do
    let s ← sampleSite θ "std_observation"
      (List.replicate (mean.shape.headD 0) (halfNormalLP noiseScale))
    if (θ "corr_matrix").shape ≠ [mean.shape.headD 0, mean.shape.headD 0] ∨
        ol.1.shape ≠ ol.2.shape then
      .error .valueError
    else
      pure (logDensity [s] + lkj (mean.shape.headD 0) concentration (θ "corr_matrix")
        + ((List.range (ol.2.shape.headD 0)).map fun j =>
            mvnLP (rowOf ol.2 (mean.shape.headD 0) j)
              (obsScaleTril (vectorOf (θ "std_observation") (mean.shape.headD 0))
                (matrixOf (θ "corr_matrix") (mean.shape.headD 0)))
              (rowOf ol.1 (mean.shape.headD 0) j)).sum)

/-- The log density of `multivariate_model` given the target. (`models.py` 13-86.) -/
noncomputable def panelLogJoint {D : Type} (lkj : Nat → ℝ → Tensor ℝ → ℝ)
    (noiseScale concentration : ℝ) (single : Bool) (y : Tensor ℝ)
    (trend : EffectCall D ℝ) (tp : Priors D) (trendData : D) (data : PyDict D)
    (effects : PyDict (EffectCall D ℝ)) (pr : String → Priors D) (θ : SiteEnv ℝ) : PyM ℝ := do
  let r ← runMean trend tp trendData data effects pr θ
  let o ← panelObsLog lkj noiseScale concentration single y r.1.mean θ
  pure (logDensity r.2 + o)

end PV
