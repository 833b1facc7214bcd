import Mathlib.Analysis.SpecialFunctions.Log.Basic
import Mathlib.Analysis.SpecialFunctions.Pow.Real
import Verif.Model.EffectBase

/-!
# Linear, log and Hill effects (`effects/linear.py`, `effects/log.py`, `effects/hill.py`)

Sample sites have the value given by `θ`.  Arithmetic is exact (ordered field or `ℝ`), not
floating point.
-/

namespace PV
open Tensor

/-- The array among the possible values of `data`; the empty dictionary has no `shape` and
supports no arithmetic (`AttributeError` for the linear effect; the others differ in the
class of the exception only). (`effects/linear.py` 65.) -/
def Transformed.array {D : Type} : Transformed D → PyM D
  | .data d => .ok d
  | .emptyDict => .error .attributeError

/-- `LinearEffect._predict` (`effects/linear.py` 43-76, `utils/algebric_operations.py` 9-26).
The site `coefs` has one value per feature (the plate makes it so); whatever its shape, it is
used as `coefs.reshape((-1, 1))`, so the product has a last axis of size 1. -/
def linearRaw {K : Type} [Add K] [Mul K] [Zero K] : EffectCall (Transformed (Tensor K)) K :=
  fun θ data _ => do
    let d ← data.array
    let r ← dotLast d (θ "coefs").data
    pure ⟨r.shape ++ [1], r.data⟩

/-- The value of a scalar sample site. (`effects/log.py` 63-64, `effects/hill.py` 67-69.) -/
def siteScalar {K : Type} [Zero K] (θ : SiteEnv K) (name : String) : K := (θ name).data.headD 0

/-- `LogEffect._predict` on one entry (`effects/log.py` 63-65): `clip(·, 1e-8, None)`. -/
noncomputable def logEntry (scale rate x : ℝ) : ℝ :=
  scale * Real.log (max (rate * x + 1) (1 / 10 ^ 8))

/-- `LogEffect._predict` (`effects/log.py` 41-67): elementwise. -/
noncomputable def logRaw : EffectCall (Transformed (Tensor ℝ)) ℝ := fun θ data _ => do
  let d ← data.array
  pure (d.map (logEntry (siteScalar θ "log_scale") (siteScalar θ "log_rate")))

/-- `_exponent_safe` on one entry (`utils/algebric_operations.py` 29-45). -/
noncomputable def exponentSafe (z e : ℝ) : ℝ :=
  let safe := (if z = 0 then 1 else z) ^ e
  if z = 0 then 0 else safe

/-- `HillEffect._predict` on one entry (`effects/hill.py` 71-72). -/
noncomputable def hillEntry (halfMax slope maxEffect x : ℝ) : ℝ :=
  maxEffect / (1 + exponentSafe (x / halfMax) (-slope))

/-- `HillEffect._predict` (`effects/hill.py` 46-73): elementwise.  For negative entries and
non-integral slopes jax yields NaN; nothing is claimed about these. -/
noncomputable def hillRaw : EffectCall (Transformed (Tensor ℝ)) ℝ := fun θ data _ => do
  let d ← data.array
  pure (d.map (hillEntry (siteScalar θ "half_max") (siteScalar θ "slope")
    (siteScalar θ "max_effect")))

end PV
