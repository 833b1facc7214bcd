import Mathlib.Probability.Distributions.Gaussian.Real
import Mathlib.MeasureTheory.Measure.Lebesgue.Integral
import Mathlib.Analysis.SpecialFunctions.Gamma.Basic
import Mathlib.Analysis.Analytic.Binomial
import Verif.Model.Density

/-!
# Moments of the distributions

Total mass, mean and variance of the densities of `Model/Density.lean`.
-/

namespace PV
open MeasureTheory ProbabilityTheory Set

/-! ## Normal -/

theorem exp_normalLP {m s : ℝ} (hs : 0 < s) (x : ℝ) :
    Real.exp (normalLP m s x) = gaussianPDFReal m (Real.toNNReal (s ^ 2)) x := by
  have h2 : (0 : ℝ) ≤ s ^ 2 := sq_nonneg s
  rw [gaussianPDFReal, Real.coe_toNNReal _ h2, normalLP]
  have e : (Real.sqrt (2 * Real.pi * s ^ 2))⁻¹ = Real.exp (-Real.log s - Real.log (2 * Real.pi) / 2) := by
    rw [Real.sqrt_eq_rpow, ← Real.rpow_neg (by positivity), Real.rpow_def_of_pos (by positivity),
      Real.log_mul (by positivity) (by positivity), Real.log_pow]
    congr 1
    push_cast
    ring
  rw [e, ← Real.exp_add]
  congr 1
  ring

theorem normal_moments (m : ℝ) {s : ℝ} (hs : 0 < s) :
    ∫ x, Real.exp (normalLP m s x) = 1 ∧ ∫ x, x * Real.exp (normalLP m s x) = m ∧
      ∫ x, (x - m) ^ 2 * Real.exp (normalLP m s x) = s ^ 2 := by
  have hv : Real.toNNReal (s ^ 2) ≠ 0 := by
    rw [ne_eq, Real.toNNReal_eq_zero, not_le]
    positivity
  have key : ∀ f : ℝ → ℝ, ∫ x, f x * Real.exp (normalLP m s x) = ∫ x, f x ∂(gaussianReal m (Real.toNNReal (s ^ 2))) := by
    intro f
    rw [integral_gaussianReal_eq_integral_smul hv]
    refine integral_congr_ae (Filter.Eventually.of_forall fun x => ?_)
    simp only [exp_normalLP hs, smul_eq_mul, mul_comm]
  refine ⟨?_, ?_, ?_⟩
  · simp only [exp_normalLP hs]
    exact integral_gaussianPDFReal_eq_one m hv
  · rw [key fun x => x]
    exact integral_id_gaussianReal
  · rw [key fun x => (x - m) ^ 2]
    have h := variance_id_gaussianReal (μ := m) (v := Real.toNNReal (s ^ 2))
    rw [variance_eq_integral (by fun_prop)] at h
    simp only [id_eq, integral_id_gaussianReal] at h
    rw [h, Real.coe_toNNReal _ (sq_nonneg s)]

/-- The half-normal density has mass one on the positive numbers. -/
theorem halfNormal_mass {s : ℝ} (hs : 0 < s) : ∫ x in Ioi 0, Real.exp (halfNormalLP s x) = 1 := by
  have h : ∫ x, Real.exp (normalLP 0 s |x|) = 2 * ∫ x in Ioi 0, Real.exp (normalLP 0 s x) :=
    integral_comp_abs (f := fun x => Real.exp (normalLP 0 s x))
  have h' : ∫ x, Real.exp (normalLP 0 s |x|) = 1 := by
    rw [← (normal_moments 0 hs).1]
    refine integral_congr_ae (Filter.Eventually.of_forall fun x => ?_)
    simp [normalLP]
  simp only [halfNormalLP, Real.exp_add, Real.exp_log (two_pos : (0 : ℝ) < 2)]
  rw [integral_const_mul, ← h, h']

/-! ## Laplace -/

theorem laplace_mass (m : ℝ) {b : ℝ} (hb : 0 < b) : ∫ x, Real.exp (laplaceLP m b x) = 1 := by
  have e : ∀ x, Real.exp (laplaceLP m b x) = (fun u => (2 * b)⁻¹ * Real.exp (-(|u| / b))) (x - m) := by
    intro x
    simp only [laplaceLP, sub_eq_add_neg, Real.exp_add, Real.exp_neg (Real.log _), Real.exp_log (by positivity : (0 : ℝ) < 2 * b)]
    ring
  simp only [e]
  rw [integral_sub_right_eq_self (fun u => (2 * b)⁻¹ * Real.exp (-(|u| / b))) m]
  rw [integral_const_mul, integral_comp_abs (f := fun u => Real.exp (-(u / b)))]
  have h := Real.integral_rpow_mul_exp_neg_mul_Ioi (a := 1) (r := 1 / b) one_pos (by positivity)
  simp only [sub_self, Real.rpow_zero, one_mul, Real.rpow_one, Real.Gamma_one, one_div_one_div, mul_one] at h
  have e2 : ∫ x in Ioi (0 : ℝ), Real.exp (-(x / b)) = b := by
    refine (integral_congr_ae (Filter.Eventually.of_forall fun x => ?_)).trans h
    congr 2
    ring
  rw [e2]
  field_simp

/-! ## Gamma -/

theorem exp_gammaLP {c r x : ℝ} (hc : 0 < c) (hr : 0 < r) (hx : 0 < x) :
    Real.exp (gammaLP c r x) = r ^ c / Real.Gamma c * (x ^ (c - 1) * Real.exp (-(r * x))) := by
  have hG := Real.Gamma_pos_of_pos hc
  rw [gammaLP, Real.exp_sub, Real.exp_log hG, Real.exp_sub, Real.exp_add, Real.rpow_def_of_pos hr,
    Real.rpow_def_of_pos hx, Real.exp_neg, mul_comm (Real.log r), mul_comm (Real.log x)]
  field_simp

theorem gamma_power {c r : ℝ} (hc : 0 < c) (hr : 0 < r) (k : ℕ) :
    ∫ x in Ioi (0 : ℝ), x ^ k * Real.exp (gammaLP c r x) = Real.Gamma (c + k) / (Real.Gamma c * r ^ k) := by
  have hG := Real.Gamma_pos_of_pos hc
  have e : ∫ x in Ioi (0 : ℝ), x ^ k * Real.exp (gammaLP c r x)
      = ∫ x in Ioi (0 : ℝ), r ^ c / Real.Gamma c * (x ^ (c + k - 1) * Real.exp (-(r * x))) := by
    refine setIntegral_congr_fun measurableSet_Ioi fun x hx => ?_
    have hx : 0 < x := hx
    simp only [exp_gammaLP hc hr hx]
    have : x ^ (c + k - 1) = x ^ (c - 1) * x ^ k := by
      rw [← Real.rpow_natCast, ← Real.rpow_add hx]
      congr 1
      ring
    rw [this]
    ring
  rw [e, integral_const_mul, Real.integral_rpow_mul_exp_neg_mul_Ioi (by positivity) hr, one_div,
    Real.inv_rpow hr.le, Real.rpow_add hr, Real.rpow_natCast]
  have := (Real.rpow_pos_of_pos hr c).ne'
  field_simp

theorem gamma_integrable {c r : ℝ} (hc : 0 < c) (hr : 0 < r) (k : ℕ) :
    IntegrableOn (fun x => x ^ k * Real.exp (gammaLP c r x)) (Ioi 0) := by
  by_contra h
  have := integral_undef h
  rw [gamma_power hc hr] at this
  have h1 := Real.Gamma_pos_of_pos (show 0 < c + k by positivity)
  have h2 := Real.Gamma_pos_of_pos hc
  have : 0 < Real.Gamma (c + k) / (Real.Gamma c * r ^ k) := by positivity
  linarith

theorem gamma_moments {c r : ℝ} (hc : 0 < c) (hr : 0 < r) :
    ∫ x in Ioi (0 : ℝ), Real.exp (gammaLP c r x) = 1 ∧
      ∫ x in Ioi (0 : ℝ), x * Real.exp (gammaLP c r x) = c / r ∧
      ∫ x in Ioi (0 : ℝ), (x - c / r) ^ 2 * Real.exp (gammaLP c r x) = c / r ^ 2 := by
  have hG := (Real.Gamma_pos_of_pos hc).ne'
  have h0 := gamma_power hc hr 0
  have h1 := gamma_power hc hr 1
  have h2 := gamma_power hc hr 2
  have i0 := gamma_integrable hc hr 0
  have i1 := gamma_integrable hc hr 1
  have i2 := gamma_integrable hc hr 2
  simp only [pow_zero, pow_one, one_mul, Nat.cast_zero, Nat.cast_one, Nat.cast_ofNat, add_zero, mul_one] at h0 h1 h2 i0 i1 i2
  rw [div_self hG] at h0
  have e1 : Real.Gamma (c + 1) = c * Real.Gamma c := Real.Gamma_add_one hc.ne'
  have e2 : Real.Gamma (c + 2) = (c + 1) * (c * Real.Gamma c) := by
    rw [← e1, ← Real.Gamma_add_one (by positivity)]
    congr 1
    ring
  rw [e1] at h1
  rw [e2] at h2
  refine ⟨h0, ?_, ?_⟩
  · rw [h1]
    field_simp
  · have e : ∀ x : ℝ, (x - c / r) ^ 2 * Real.exp (gammaLP c r x)
        = x ^ 2 * Real.exp (gammaLP c r x) - 2 * (c / r) * (x * Real.exp (gammaLP c r x))
          + (c / r) ^ 2 * Real.exp (gammaLP c r x) := fun x => by ring
    simp only [e]
    have ia := i1.const_mul (2 * (c / r))
    have ib := i0.const_mul ((c / r) ^ 2)
    have i3 : IntegrableOn (fun x => x ^ 2 * Real.exp (gammaLP c r x) - 2 * (c / r) * (x * Real.exp (gammaLP c r x)))
      (Ioi 0) := i2.sub ia
    rw [integral_add i3 ib, integral_sub i2 ia, integral_const_mul, integral_const_mul, h0, h1, h2]
    field_simp
    ring

/-! ## Negative binomial -/

theorem Gamma_add_nat {a : ℝ} (ha : 0 < a) : ∀ n : ℕ, Real.Gamma (a + n) = Real.Gamma a * (ascPochhammer ℝ n).eval a
  | 0 => by simp
  | n + 1 => by
    have : a + ((n + 1 : ℕ) : ℝ) = (a + n) + 1 := by push_cast; ring
    rw [this, Real.Gamma_add_one (by positivity), Gamma_add_nat ha n, ascPochhammer_succ_eval]
    ring

theorem choose_Gamma {a : ℝ} (ha : 0 < a) (n : ℕ) :
    Ring.choose (a + n - 1) n = Real.Gamma (a + n) / (Real.Gamma a * Real.Gamma (n + 1)) := by
  have hG := (Real.Gamma_pos_of_pos ha).ne'
  have h := Ring.factorial_nsmul_multichoose_eq_ascPochhammer a n
  rw [Ring.choose, show a + n - 1 - n + 1 = a by ring, Gamma_add_nat ha, Real.Gamma_nat_eq_factorial]
  rw [Polynomial.ascPochhammer_smeval_eq_eval, nsmul_eq_mul] at h
  have hf : (n.factorial : ℝ) ≠ 0 := by positivity
  rw [eq_div_iff (by positivity), ← h]
  ring

theorem binomial_hasSum {a q : ℝ} (ha : 0 < a) (hq : 0 ≤ q) (hq1 : q < 1) :
    HasSum (fun n : ℕ => Real.Gamma (a + n) / (Real.Gamma a * Real.Gamma (n + 1)) * q ^ n) (1 / (1 - q) ^ a) := by
  have h := (Real.one_div_one_sub_rpow_hasFPowerSeriesOnBall_zero a).hasSum (y := q) (by
    simp only [EMetric.mem_ball, edist_zero_right]
    rw [enorm_eq_nnnorm]
    have : ‖q‖₊ < 1 := by
      rw [← NNReal.coe_lt_coe]
      simpa [abs_of_nonneg hq] using hq1
    exact_mod_cast this)
  simp only [zero_add, FormalMultilinearSeries.ofScalars_apply_eq, smul_eq_mul] at h
  simpa only [choose_Gamma ha] using h

/-- Mass of the negative binomial distribution with `a` successes and failure probability `q`. -/
noncomputable def nbMass (a q : ℝ) (n : ℕ) : ℝ :=
  Real.Gamma (a + n) / (Real.Gamma a * Real.Gamma (n + 1)) * q ^ n * (1 - q) ^ a

theorem nbMass_hasSum {a q : ℝ} (ha : 0 < a) (hq : 0 ≤ q) (hq1 : q < 1) : HasSum (nbMass a q) 1 := by
  have h := (binomial_hasSum ha hq hq1).mul_right ((1 - q) ^ a)
  have h0 : (1 - q) ^ a ≠ 0 := (Real.rpow_pos_of_pos (by linarith) a).ne'
  rw [one_div, inv_mul_cancel₀ h0] at h
  exact h

theorem nbMass_succ {a q : ℝ} (ha : 0 < a) (hq1 : q < 1) (n : ℕ) :
    ((n + 1 : ℕ) : ℝ) * nbMass a q (n + 1) = a * (q / (1 - q)) * nbMass (a + 1) q n := by
  have hG := (Real.Gamma_pos_of_pos ha).ne'
  have h1 : (0 : ℝ) < 1 - q := by linarith
  have hn : Real.Gamma ((n : ℝ) + 1) ≠ 0 := (Real.Gamma_pos_of_pos (by positivity)).ne'
  unfold nbMass
  have e1 : a + ((n + 1 : ℕ) : ℝ) = a + 1 + n := by push_cast; ring
  have e2 : Real.Gamma (((n + 1 : ℕ) : ℝ) + 1) = ((n : ℝ) + 1) * Real.Gamma (n + 1) := by
    push_cast
    exact Real.Gamma_add_one (by positivity)
  rw [e1, e2, Real.Gamma_add_one ha.ne', Real.rpow_add h1, Real.rpow_one]
  push_cast
  field_simp
  ring

theorem nbMass_mean {a q : ℝ} (ha : 0 < a) (hq : 0 ≤ q) (hq1 : q < 1) :
    HasSum (fun n : ℕ => (n : ℝ) * nbMass a q n) (a * (q / (1 - q))) := by
  rw [← hasSum_nat_add_iff' 1]
  simp only [nbMass_succ ha hq1, Finset.sum_range_one, Nat.cast_zero, zero_mul, sub_zero]
  simpa using (nbMass_hasSum (a := a + 1) (by linarith) hq hq1).mul_left (a * (q / (1 - q)))

theorem nbMass_pairs {a q : ℝ} (ha : 0 < a) (hq : 0 ≤ q) (hq1 : q < 1) :
    HasSum (fun n : ℕ => (n : ℝ) * ((n : ℝ) - 1) * nbMass a q n) (a * (q / (1 - q)) * ((a + 1) * (q / (1 - q)))) := by
  rw [← hasSum_nat_add_iff' 1]
  have e : ∀ n : ℕ, ((n + 1 : ℕ) : ℝ) * (((n + 1 : ℕ) : ℝ) - 1) * nbMass a q (n + 1)
      = a * (q / (1 - q)) * ((n : ℝ) * nbMass (a + 1) q n) := by
    intro n
    have := nbMass_succ (q := q) ha hq1 n
    have e : (((n + 1 : ℕ) : ℝ) - 1) = n := by push_cast; ring
    rw [e]
    linear_combination (n : ℝ) * this
  simp only [e, Finset.sum_range_one, Nat.cast_zero, zero_mul, sub_zero]
  exact (nbMass_mean (a := a + 1) (by linarith) hq hq1).mul_left (a * (q / (1 - q)))

theorem exp_negBinomial2LP {mean conc : ℝ} (hm : 0 < mean) (hc : 0 < conc) (n : ℕ) :
    Real.exp (negBinomial2LP mean conc n) = nbMass conc (mean / (mean + conc)) n := by
  have h1 := Real.Gamma_pos_of_pos hc
  have h2 : 0 < Real.Gamma (conc + n) := Real.Gamma_pos_of_pos (by positivity)
  have h3 : 0 < Real.Gamma ((n : ℝ) + 1) := Real.Gamma_pos_of_pos (by positivity)
  have hr : 0 < 1 + conc / mean := by positivity
  have hr' : 0 < conc / mean / (1 + conc / mean) := by positivity
  unfold negBinomial2LP nbMass
  simp only
  rw [Real.exp_sub, Real.exp_add, Real.exp_sub, Real.exp_sub, Real.exp_log h1, Real.exp_log h2, Real.exp_log h3]
  have e1 : Real.exp (conc * Real.log (conc / mean / (1 + conc / mean))) = (1 - mean / (mean + conc)) ^ conc := by
    have : 1 - mean / (mean + conc) = conc / mean / (1 + conc / mean) := by
      field_simp
      ring
    rw [this, Real.rpow_def_of_pos hr', mul_comm]
  have e2 : Real.exp (n * Real.log (1 + conc / mean)) = ((mean / (mean + conc)) ^ n)⁻¹ := by
    rw [mul_comm, ← Real.rpow_def_of_pos hr, Real.rpow_natCast, ← inv_pow]
    congr 1
    field_simp
  rw [e1, e2]
  field_simp

theorem negBinomial_moments {mean conc : ℝ} (hm : 0 < mean) (hc : 0 < conc) :
    HasSum (fun n : ℕ => Real.exp (negBinomial2LP mean conc n)) 1 ∧
      HasSum (fun n : ℕ => (n : ℝ) * Real.exp (negBinomial2LP mean conc n)) mean ∧
      HasSum (fun n : ℕ => ((n : ℝ) - mean) ^ 2 * Real.exp (negBinomial2LP mean conc n))
        (mean + mean ^ 2 / conc) := by
  simp only [exp_negBinomial2LP hm hc]
  have hq : 0 ≤ mean / (mean + conc) := by positivity
  have hq1 : mean / (mean + conc) < 1 := by
    rw [div_lt_one (by positivity)]
    linarith
  have hod : mean / (mean + conc) / (1 - mean / (mean + conc)) = mean / conc := by
    have : 1 - mean / (mean + conc) = conc / (mean + conc) := by
      field_simp
      ring
    rw [this]
    field_simp
  have h0 := nbMass_hasSum hc hq hq1
  have h1 := nbMass_mean hc hq hq1
  have h2 := nbMass_pairs hc hq hq1
  rw [hod] at h1 h2
  have e1 : conc * (mean / conc) = mean := by field_simp
  rw [e1] at h1 h2
  refine ⟨h0, h1, ?_⟩
  have h := (h2.add (h1.mul_left (1 - 2 * mean))).add (h0.mul_left (mean ^ 2))
  have e2 : mean * ((conc + 1) * (mean / conc)) + (1 - 2 * mean) * mean + mean ^ 2 * 1 = mean + mean ^ 2 / conc := by
    field_simp
    ring
  rw [e2] at h
  convert h using 2
  ring

end PV
