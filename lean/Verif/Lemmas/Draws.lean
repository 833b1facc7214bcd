import Mathlib.Probability.Moments.Variance
import Mathlib.MeasureTheory.Integral.Bochner.SumMeasure
import Verif.Lemmas.Distributions
import Verif.Spec.Draws

/-!
# Mean and variance of numbers drawn from a density
-/

namespace PV
open MeasureTheory ProbabilityTheory Set

/-- A random variable whose law has a density with given first moments. -/
theorem density_moments {Ω : Type} [MeasurableSpace Ω] {P : Measure Ω} [IsProbabilityMeasure P]
    {X : Ω → ℝ} {ν : Measure ℝ} {f : ℝ → ℝ} (hf : Measurable f) (hpos : ∀ y, 0 ≤ f y)
    (hX : HasLaw X (ν.withDensity fun y => ENNReal.ofReal (f y)) P) {m v : ℝ} (hv : 0 < v)
    (h1 : ∫ y, f y ∂ν = 1) (hm : ∫ y, y * f y ∂ν = m) (h2 : ∫ y, (y - m) ^ 2 * f y ∂ν = v) :
    MemLp X 2 P ∧ ∫ ω, X ω ∂P = m ∧ Var[X; P] = v := by
  have hF : Measurable fun y => ENNReal.ofReal (f y) := hf.ennreal_ofReal
  have hlt : ∀ᵐ y ∂ν, ENNReal.ofReal (f y) < ⊤ := Filter.Eventually.of_forall fun _ => ENNReal.ofReal_lt_top
  have htr : ∀ y, (ENNReal.ofReal (f y)).toReal = f y := fun y => ENNReal.toReal_ofReal (hpos y)
  have hint : ∀ g : ℝ → ℝ, ∫ y, g y ∂(ν.withDensity fun y => ENNReal.ofReal (f y)) = ∫ y, g y * f y ∂ν := by
    intro g
    rw [integral_withDensity_eq_integral_toReal_smul hF hlt]
    simp only [htr, smul_eq_mul, mul_comm]
  have hI2 : Integrable (fun y => (y - m) ^ 2 * f y) ν := by
    by_contra h
    rw [integral_undef h] at h2
    exact hv.ne h2
  have hL2 : MemLp (fun y : ℝ => y - m) 2 (ν.withDensity fun y => ENNReal.ofReal (f y)) := by
    refine (memLp_two_iff_integrable_sq (by fun_prop)).2 ?_
    rw [integrable_withDensity_iff hF hlt]
    simpa only [htr] using hI2
  have hXm : MemLp (fun ω => X ω - m) 2 P := by
    have := hX.map_eq ▸ hL2
    exact this.comp_of_map hX.aemeasurable
  have hX2 : MemLp X 2 P := by
    have := hXm.add (memLp_const m)
    refine this.congr_norm hX.aemeasurable.aestronglyMeasurable ?_
    filter_upwards with ω
    simp
  have hmean : ∫ ω, X ω ∂P = m := by
    rw [hX.integral_eq, hint fun y => y]
    exact hm
  refine ⟨hX2, hmean, ?_⟩
  rw [variance_eq_integral hX.aemeasurable, hmean]
  have := hX.integral_comp (f := fun y => (y - m) ^ 2) (by fun_prop)
  simp only [Function.comp_def] at this
  rw [this, hint]
  exact h2

/-- A random count with given probabilities and moments. -/
theorem count_moments {Ω : Type} [MeasurableSpace Ω] {P : Measure Ω} [IsProbabilityMeasure P]
    {k : Ω → ℕ} (hk : Measurable k) {p : ℕ → ℝ} (hpos : ∀ j, 0 ≤ p j)
    (hP : ∀ j, P {ω | k ω = j} = ENNReal.ofReal (p j)) {m v : ℝ}
    (h1 : HasSum p 1) (hm : HasSum (fun j : ℕ => (j : ℝ) * p j) m)
    (h2 : HasSum (fun j : ℕ => ((j : ℝ) - m) ^ 2 * p j) v) :
    MemLp (fun ω => (k ω : ℝ)) 2 P ∧ ∫ ω, (k ω : ℝ) ∂P = m ∧ Var[fun ω => (k ω : ℝ); P] = v := by
  have hmap : ∀ j, (P.map k).real {j} = p j := by
    intro j
    rw [measureReal_def, Measure.map_apply hk (measurableSet_singleton j)]
    have : k ⁻¹' {j} = {ω | k ω = j} := rfl
    rw [this, hP, ENNReal.toReal_ofReal (hpos j)]
  have key : ∀ g : ℕ → ℝ, (∀ j, 0 ≤ g j) → ∀ s, HasSum (fun j => g j * p j) s →
      Integrable g (P.map k) ∧ ∫ j, g j ∂(P.map k) = s := by
    intro g hg s hs
    have hi : Integrable g (P.map k) := by
      refine ⟨(measurable_of_countable g).aestronglyMeasurable, ?_⟩
      rw [hasFiniteIntegral_iff_ofReal (Filter.Eventually.of_forall hg), lintegral_countable']
      have e : ∀ j, ENNReal.ofReal (g j) * (P.map k) {j} = ENNReal.ofReal (g j * p j) := by
        intro j
        rw [Measure.map_apply hk (measurableSet_singleton j)]
        have : k ⁻¹' {j} = {ω | k ω = j} := rfl
        rw [this, hP, ENNReal.ofReal_mul (hg j)]
      simp only [e]
      rw [← ENNReal.ofReal_tsum_of_nonneg (fun j => mul_nonneg (hg j) (hpos j)) hs.summable]
      exact ENNReal.ofReal_lt_top
    refine ⟨hi, ?_⟩
    rw [integral_countable hi]
    simp only [hmap, smul_eq_mul]
    rw [← hs.tsum_eq]
    exact tsum_congr fun j => mul_comm _ _
  have hkR : Measurable fun ω => (k ω : ℝ) := (measurable_of_countable (fun j : ℕ => (j : ℝ))).comp hk
  have hI := key (fun j => (j : ℝ)) (fun j => Nat.cast_nonneg j) m hm
  have hI2 := key (fun j => ((j : ℝ) - m) ^ 2) (fun j => sq_nonneg _) v h2
  have hmean : ∫ ω, (k ω : ℝ) ∂P = m := by
    rw [← hI.2, integral_map hk.aemeasurable (measurable_of_countable _).aestronglyMeasurable]
  have hLm : MemLp (fun ω => (k ω : ℝ) - m) 2 P := by
    refine (memLp_two_iff_integrable_sq (hkR.sub_const m).aestronglyMeasurable).2 ?_
    exact hI2.1.comp_measurable hk
  have hL : MemLp (fun ω => (k ω : ℝ)) 2 P := by
    refine (hLm.add (memLp_const m)).congr_norm hkR.aestronglyMeasurable ?_
    filter_upwards with ω
    simp
  refine ⟨hL, hmean, ?_⟩
  rw [variance_eq_integral hkR.aemeasurable, hmean, ← hI2.2,
    integral_map hk.aemeasurable (measurable_of_countable _).aestronglyMeasurable]

end PV
