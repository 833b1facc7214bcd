import Mathlib.Data.Matrix.Diagonal
import Mathlib.Data.Matrix.Mul
import Verif.Model.Broadcast

/-!
# The observation distribution of the hierarchical model (`models.py` 13-86)
-/

namespace PV
open Tensor
variable {K : Type}

/-- `cov_mat` (`models.py` 75-77), used as `scale_tril` (84): `L` is the value of the site
`corr_matrix`, which numpyro's `LKJCholesky` draws as Cholesky factor of a correlation matrix. -/
def obsScaleTril [CommRing K] {n : Nat} (std : Fin n → K) (L : Matrix (Fin n) (Fin n) K) :
    Matrix (Fin n) (Fin n) K :=
  Matrix.diagonal std * L * Matrix.diagonal std

/-- Covariance of `dist.MultivariateNormal(loc, scale_tril=S)` of numpyro. Used at `models.py` 84. -/
def mvnCovariance [CommRing K] {n : Nat} (S : Matrix (Fin n) (Fin n) K) : Matrix (Fin n) (Fin n) K :=
  S * S.transpose

/-- `x.squeeze(-1)`: `ValueError` if the last axis does not have size 1. (`models.py` 49, 84.) -/
def squeezeLast (t : Tensor K) : PyM (Tensor K) :=
  if t.shape.getLast? = some 1 then .ok ⟨t.shape.dropLast, t.data⟩ else .error .valueError

/-- `y.squeeze(-1).T` and `mean.squeeze(-1).T` (`models.py` 48-49, 84). -/
def timeBySeries [Zero K] (t : Tensor K) : PyM (Tensor K) := do
  let s ← squeezeLast t
  pure s.transpose

/-- Observed values and means at the site `obs` (`models.py` 48-62, 78-86): entry `[t, i]` of the
second is the mean for entry `[t, i]` of the first. -/
def multivariateObs [Zero K] (single : Bool) (y mean : Tensor K) : PyM (Tensor K × Tensor K) := do
  let obs ← timeBySeries y
  let loc ← if single then mean.reshapeInfer 1 else timeBySeries mean
  pure (obs, loc)

end PV
