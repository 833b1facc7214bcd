import Mathlib.Probability.Distributions.Gamma
import Mathlib.Analysis.SpecialFunctions.Gamma.Basic
import Mathlib.MeasureTheory.Measure.WithDensity
import Mathlib.Probability.Moments.Variance

namespace PV
open Real MeasureTheory ProbabilityTheory

/-- `∫ x^n dGamma(a, r) = Γ(a+n) / (Γ(a) r^n)`. -/
theorem gamma_moment {a r : ℝ} (ha : 0 < a) (hr : 0 < r) (n : ℕ) :
    ∫ x, x ^ n ∂gammaMeasure a r = Real.Gamma (a + n) / (Real.Gamma a * r ^ n) := by
  have hmeas : Measurable fun x => gammaPDF a r x :=
    (measurable_gammaPDFReal a r).ennreal_ofReal
  rw [gammaMeasure, integral_withDensity_eq_integral_toReal_smul hmeas
    (Filter.Eventually.of_forall fun x => ENNReal.ofReal_lt_top)]
  have h1 : ∀ x : ℝ, (gammaPDF a r x).toReal • x ^ n
      = (Set.Ici (0 : ℝ)).indicator
        (fun x => r ^ a / Real.Gamma a * (x ^ ((a + n) - 1) * exp (-(r * x)))) x := by
    intro x
    rw [gammaPDF, ENNReal.toReal_ofReal (gammaPDFReal_nonneg ha hr x)]
    by_cases hx : 0 ≤ x
    · rw [Set.indicator_of_mem (Set.mem_Ici.2 hx), gammaPDFReal, if_pos hx, smul_eq_mul]
      rcases hx.eq_or_lt with h0 | h0
      · subst h0
        rcases Nat.eq_zero_or_pos n with hn | hn
        · subst hn; simp
        · have : (a + n - 1 : ℝ) ≠ 0 := by
            have : (1 : ℝ) ≤ n := by exact_mod_cast hn
            intro h; linarith
          rw [zero_pow hn.ne', Real.zero_rpow this]
          simp
      · rw [show a + (n : ℝ) - 1 = (a - 1) + n by ring, Real.rpow_add h0, Real.rpow_natCast]
        ring
    · rw [Set.indicator_of_notMem (by simpa using hx), gammaPDFReal, if_neg hx]
      simp
  simp_rw [h1]
  rw [integral_indicator measurableSet_Ici, integral_Ici_eq_integral_Ioi, integral_const_mul,
    Real.integral_rpow_mul_exp_neg_mul_Ioi (by positivity) hr]
  have hg : Real.Gamma a ≠ 0 := (Real.Gamma_pos_of_pos ha).ne'
  rw [one_div, Real.inv_rpow hr.le, Real.rpow_add hr, Real.rpow_natCast]
  have h2 : r ^ a ≠ 0 := (Real.rpow_pos_of_pos hr a).ne'
  field_simp

theorem gamma_integrable_pow {a r : ℝ} (ha : 0 < a) (hr : 0 < r) (n : ℕ) :
    Integrable (fun x => x ^ n) (gammaMeasure a r) := by
  by_contra h
  have h0 := integral_undef h
  rw [gamma_moment ha hr] at h0
  have : 0 < Real.Gamma (a + n) / (Real.Gamma a * r ^ n) := by
    have := Real.Gamma_pos_of_pos ha
    have := Real.Gamma_pos_of_pos (show 0 < a + n by positivity)
    positivity
  exact this.ne' h0

/-- Mean of the Gamma distribution with concentration `a` and rate `r`. -/
theorem gamma_mean {a r : ℝ} (ha : 0 < a) (hr : 0 < r) :
    ∫ x, x ∂gammaMeasure a r = a / r := by
  have h := gamma_moment ha hr 1
  simp only [pow_one, Nat.cast_one] at h
  rw [h, Real.Gamma_add_one ha.ne']
  have hg : Real.Gamma a ≠ 0 := (Real.Gamma_pos_of_pos ha).ne'
  field_simp

/-- Variance of the Gamma distribution with concentration `a` and rate `r`. -/
theorem gamma_variance {a r : ℝ} (ha : 0 < a) (hr : 0 < r) :
    variance (fun x => x) (gammaMeasure a r) = a / r ^ 2 := by
  have : IsProbabilityMeasure (gammaMeasure a r) := isProbabilityMeasure_gammaMeasure ha hr
  have hL : MemLp (fun x : ℝ => x) 2 (gammaMeasure a r) := by
    rw [memLp_two_iff_integrable_sq (by fun_prop)]
    exact gamma_integrable_pow ha hr 2
  rw [variance_eq_sub hL]
  have h2 := gamma_moment ha hr 2
  have hsq : ∫ x, ((fun x : ℝ => x) ^ 2) x ∂gammaMeasure a r
      = ∫ x, x ^ 2 ∂gammaMeasure a r := rfl
  rw [hsq, h2, gamma_mean ha hr]
  have hga : Real.Gamma (a + (2 : ℕ)) = (a + 1) * (a * Real.Gamma a) := by
    rw [← Real.Gamma_add_one ha.ne', ← Real.Gamma_add_one (by positivity)]
    congr 1
    push_cast
    ring
  rw [hga]
  have hg : Real.Gamma a ≠ 0 := (Real.Gamma_pos_of_pos ha).ne'
  field_simp
  ring

end PV
