import Mathlib.LinearAlgebra.Matrix.NonsingularInverse
import Mathlib.Analysis.SpecialFunctions.Log.Basic
import Mathlib.Analysis.SpecialFunctions.Trigonometric.Basic

/-!
# The textbook density of a multivariate normal distribution
-/

namespace PV
open Matrix

/-- The log density of the normal distribution with mean `μ` and covariance `C`. -/
noncomputable def normalDensity {n : Nat} (μ : Fin n → ℝ) (C : Matrix (Fin n) (Fin n) ℝ)
    (x : Fin n → ℝ) : ℝ :=
  -((x - μ) ⬝ᵥ (C⁻¹ *ᵥ (x - μ))) / 2 - Real.log C.det / 2 - n * Real.log (2 * Real.pi) / 2

/-- The covariance of the hierarchical model, as it is (see C46 for what it should be). -/
def panelCovariance {n : Nat} (σ : Fin n → ℝ) (L : Matrix (Fin n) (Fin n) ℝ) :
    Matrix (Fin n) (Fin n) ℝ :=
  fun i j => σ i * σ j * ∑ k, σ k ^ 2 * (L i k * L j k)

end PV
