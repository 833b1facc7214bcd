import Mathlib.Probability.HasLaw
import Verif.Model.Density

/-!
# What it means that a number is drawn from the distribution of an observation
-/

namespace PV
open MeasureTheory ProbabilityTheory Set

/-- `X` is drawn from `d`: real numbers with the density `exp (log_prob)` for the normal likelihood,
positive numbers for the Gamma likelihood, and whole numbers with these probabilities for counts. -/
def DrawnFrom {Ω : Type} [MeasurableSpace Ω] (P : Measure Ω) (X : Ω → ℝ) (d : ObsDist) : Prop :=
  match d with
  | .normal _ _ => HasLaw X (volume.withDensity fun y => ENNReal.ofReal (Real.exp (d.logProb y))) P
  | .gamma _ =>
    HasLaw X ((volume.restrict (Ioi 0)).withDensity fun y => ENNReal.ofReal (Real.exp (d.logProb y))) P
  | .negBinomial2 _ _ => ∃ k : Ω → ℕ, Measurable k ∧ (∀ ω, X ω = k ω) ∧
      ∀ j : ℕ, P {ω | k ω = j} = ENNReal.ofReal (Real.exp (d.logProb j))

end PV
