import Mathlib.Tactic.FieldSimp
import Mathlib.Tactic.Ring
import Mathlib.Analysis.SpecialFunctions.Sqrt
import Verif.Lemmas.NegBinomial

/-!
# Bounds of the Gamma log density in terms of mean and standard deviation
-/

namespace PV
open MeasureTheory Filter Set

theorem logGamma_ge {a : ℝ} (ha : 0 < a) : a * Real.log a - a - Real.log a ≤ Real.log (Real.Gamma a) := by
  have h := rpow_mul_exp_le_Gamma ha.le ha
  rw [Real.Gamma_add_one ha.ne'] at h
  have h2 := Real.log_le_log (by positivity) h
  rw [Real.log_mul (by positivity) (by positivity), Real.log_rpow ha, Real.log_exp,
    Real.log_mul ha.ne' (Real.Gamma_pos_of_pos ha).ne'] at h2
  linarith

/-- The distance of a ratio from 1, as the Gamma density measures it. -/
theorem ratio_gap {u : ℝ} (hu : 0 < u) : (Real.sqrt u - 1) ^ 2 ≤ u - 1 - Real.log u := by
  have hs : 0 < Real.sqrt u := Real.sqrt_pos.2 hu
  have h1 := Real.log_le_sub_one_of_pos hs
  rw [Real.log_sqrt hu.le] at h1
  have h2 := Real.sq_sqrt hu.le
  nlinarith

/-- The log density at `y` of the Gamma distribution with mean `μ` and standard deviation `σ`. -/
theorem gammaLP_le_gap {μ σ y : ℝ} (hμ : 0 < μ) (hσ : 0 < σ) (hy : 0 < y) :
    gammaLP (μ ^ 2 / σ ^ 2) (μ / σ ^ 2) y
      ≤ 2 * Real.log (μ / σ) - Real.log y - μ ^ 2 / σ ^ 2 * (y / μ - 1 - Real.log (y / μ)) := by
  have ha : 0 < μ ^ 2 / σ ^ 2 := by positivity
  have h := logGamma_ge ha
  have e1 : Real.log (μ / σ ^ 2) = Real.log (μ ^ 2 / σ ^ 2) - Real.log μ := by
    rw [← Real.log_div ha.ne' hμ.ne']
    congr 1
    field_simp
  have e2 : Real.log (μ ^ 2 / σ ^ 2) = 2 * Real.log (μ / σ) := by
    rw [← div_pow, Real.log_pow]
    norm_num
  have e3 : μ / σ ^ 2 * y = μ ^ 2 / σ ^ 2 * (y / μ) := by field_simp
  unfold gammaLP
  rw [e1, e3, Real.log_div hy.ne' hμ.ne', ← e2]
  nlinarith

/-- For means that are bounded from below, the density falls off at least like that of a normal
distribution. -/
theorem gammaLP_le_square {μ₀ y : ℝ} (hμ₀ : 0 < μ₀) (hy : 0 < y) :
    ∃ c K C : ℝ, 0 < c ∧ 0 ≤ K ∧ ∀ μ σ, μ₀ ≤ μ → 0 < σ →
      gammaLP (μ ^ 2 / σ ^ 2) (μ / σ ^ 2) y ≤ C + K / σ - c * (y - μ) ^ 2 / σ ^ 2 := by
  set k := Real.sqrt (y / μ₀) + 1 with hk
  have hk0 : 0 < k := by positivity
  set c := 1 / k ^ 2 with hc
  have hc0 : 0 < c := by positivity
  refine ⟨c / 2, 2 * y, 2 / c - Real.log y, by positivity, by positivity, fun μ σ hμ hσ => ?_⟩
  have hμ0 : 0 < μ := lt_of_lt_of_le hμ₀ hμ
  have h1 := gammaLP_le_gap hμ0 hσ hy
  have h2 := ratio_gap (div_pos hy hμ0)
  set w := Real.sqrt (y / μ) with hw
  have hw0 : 0 ≤ w := Real.sqrt_nonneg _
  have hwk : w + 1 ≤ k := by
    have : w ≤ Real.sqrt (y / μ₀) := Real.sqrt_le_sqrt (div_le_div_of_nonneg_left hy.le hμ₀ hμ)
    rw [hk]
    linarith
  have hww : w ^ 2 = y / μ := Real.sq_sqrt (by positivity)
  have h3 : c * (y - μ) ^ 2 ≤ μ ^ 2 * (w - 1) ^ 2 := by
    have e : (y - μ) = μ * ((w - 1) * (w + 1)) := by
      have : (w - 1) * (w + 1) = y / μ - 1 := by rw [← hww]; ring
      rw [this]
      field_simp
    rw [e, hc]
    have h4 : (w + 1) ^ 2 / k ^ 2 ≤ 1 := by
      rw [div_le_one (by positivity)]
      exact pow_le_pow_left₀ (by positivity) hwk 2
    calc 1 / k ^ 2 * (μ * ((w - 1) * (w + 1))) ^ 2 = μ ^ 2 * (w - 1) ^ 2 * ((w + 1) ^ 2 / k ^ 2) := by ring
      _ ≤ μ ^ 2 * (w - 1) ^ 2 * 1 := by gcongr
      _ = _ := by ring
  have h5 : c * (y - μ) ^ 2 / σ ^ 2 ≤ μ ^ 2 / σ ^ 2 * (y / μ - 1 - Real.log (y / μ)) := by
    calc c * (y - μ) ^ 2 / σ ^ 2 ≤ μ ^ 2 * (w - 1) ^ 2 / σ ^ 2 := by gcongr
      _ = μ ^ 2 / σ ^ 2 * (w - 1) ^ 2 := by ring
      _ ≤ _ := by gcongr
  -- the logarithm of the mean in units of the noise
  set z := |y - μ| / σ with hz
  have hz0 : 0 ≤ z := by positivity
  have hz2 : (y - μ) ^ 2 / σ ^ 2 = z ^ 2 := by rw [hz, div_pow, sq_abs]
  have hms : μ / σ ≤ (1 + y / σ) * (1 + z) := by
    have h6 : μ ≤ y + |y - μ| := by
      have := neg_abs_le (y - μ)
      linarith
    have h7 : μ / σ ≤ y / σ + z := by
      rw [hz, ← add_div]
      gcongr
    have h8 : 0 ≤ y / σ := by positivity
    nlinarith [mul_nonneg h8 hz0]
  have h9 : Real.log (μ / σ) ≤ y / σ + z := by
    calc Real.log (μ / σ) ≤ Real.log ((1 + y / σ) * (1 + z)) := Real.log_le_log (by positivity) hms
      _ = Real.log (1 + y / σ) + Real.log (1 + z) := Real.log_mul (by positivity) (by positivity)
      _ ≤ y / σ + z := by
        have a := Real.log_le_sub_one_of_pos (show 0 < 1 + y / σ by positivity)
        have b := Real.log_le_sub_one_of_pos (show 0 < 1 + z by positivity)
        linarith
  have h10 : 2 * z ≤ 2 / c + c / 2 * z ^ 2 := by
    have : 0 ≤ (c * z - 2) ^ 2 / (2 * c) := by positivity
    have e : (c * z - 2) ^ 2 / (2 * c) = 2 / c + c / 2 * z ^ 2 - 2 * z := by
      field_simp
      ring
    linarith
  rw [mul_div_assoc, hz2] at h5
  have e : 2 * y / σ = 2 * (y / σ) := by ring
  have e' : c / 2 * (y - μ) ^ 2 / σ ^ 2 = c / 2 * z ^ 2 := by rw [mul_div_assoc, hz2]
  rw [e, e']
  linarith

/-- `Γ(a)` from above, for `a` at least 1. -/
theorem Gamma_le_peak {a : ℝ} (ha : 1 < a) :
    Real.Gamma a ≤ 16 / 3 * Real.sqrt a * ((a - 1) ^ (a - 1) * Real.exp (-(a - 1))) := by
  have ha0 : 0 < a := by linarith
  set M := (a - 1) ^ (a - 1) * Real.exp (-(a - 1)) with hM
  have hM0 : 0 ≤ M := by
    have : 0 < a - 1 := by linarith
    positivity
  have hpeak : ∀ x : ℝ, 0 < x → Real.exp (-x) * x ^ (a - 1) ≤ M := by
    intro x hx
    have hk : 0 < a - 1 := by linarith
    rw [hM, Real.rpow_def_of_pos hx, Real.rpow_def_of_pos hk, ← Real.exp_add, ← Real.exp_add, Real.exp_le_exp]
    have h1 := Real.log_le_sub_one_of_pos (div_pos hx hk)
    rw [Real.log_div hx.ne' hk.ne'] at h1
    have h2 := mul_le_mul_of_nonneg_right h1 hk.le
    have h3 : (x / (a - 1) - 1) * (a - 1) = x - (a - 1) := by field_simp
    rw [h3] at h2
    linarith
  set r := 2 * Real.sqrt a with hr
  have hr0 : 0 ≤ r := by positivity
  have hr2 : r ^ 2 = 4 * a := by
    rw [hr, mul_pow, Real.sq_sqrt ha0.le]
    norm_num
  -- moments
  have i0 : IntegrableOn (fun x : ℝ => Real.exp (-x) * x ^ (a - 1)) (Ioi 0) := Real.GammaIntegral_convergent ha0
  have i1 : IntegrableOn (fun x : ℝ => Real.exp (-x) * x ^ (a + 1 - 1)) (Ioi 0) :=
    Real.GammaIntegral_convergent (by linarith)
  have i2 : IntegrableOn (fun x : ℝ => Real.exp (-x) * x ^ (a + 1 + 1 - 1)) (Ioi 0) :=
    Real.GammaIntegral_convergent (by linarith)
  have g0 := Real.Gamma_eq_integral ha0
  have g1 := Real.Gamma_eq_integral (show 0 < a + 1 by linarith)
  have g2 := Real.Gamma_eq_integral (show 0 < a + 1 + 1 by linarith)
  have hpt : ∀ x ∈ Ioi (0 : ℝ), Real.exp (-x) * x ^ (a - 1) ≤ (Icc (a - r) (a + r)).indicator (fun _ => M) x
      + 1 / (4 * a) * (Real.exp (-x) * x ^ (a + 1 + 1 - 1) + (-2 * a) * (Real.exp (-x) * x ^ (a + 1 - 1))
        + a ^ 2 * (Real.exp (-x) * x ^ (a - 1))) := by
    intro x hx
    have hx : 0 < x := hx
    have e1 : x ^ (a + 1 - 1) = x * x ^ (a - 1) := by
      rw [show a + 1 - 1 = 1 + (a - 1) by ring, Real.rpow_add hx, Real.rpow_one]
    have e2 : x ^ (a + 1 + 1 - 1) = x * (x * x ^ (a - 1)) := by
      rw [show a + 1 + 1 - 1 = 1 + (1 + (a - 1)) by ring, Real.rpow_add hx, Real.rpow_add hx, Real.rpow_one]
    have e3 : Real.exp (-x) * x ^ (a + 1 + 1 - 1) + (-2 * a) * (Real.exp (-x) * x ^ (a + 1 - 1))
        + a ^ 2 * (Real.exp (-x) * x ^ (a - 1)) = (x - a) ^ 2 * (Real.exp (-x) * x ^ (a - 1)) := by
      rw [e1, e2]
      ring
    rw [e3]
    have hg : 0 ≤ Real.exp (-x) * x ^ (a - 1) := by positivity
    by_cases h : x ∈ Icc (a - r) (a + r)
    · rw [indicator_of_mem h]
      have := hpeak x hx
      have h0 : 0 ≤ 1 / (4 * a) * ((x - a) ^ 2 * (Real.exp (-x) * x ^ (a - 1))) := by positivity
      linarith
    · rw [indicator_of_notMem h, zero_add]
      have hd : r ^ 2 ≤ (x - a) ^ 2 := by
        rw [sq_le_sq, abs_of_nonneg hr0]
        by_contra hcon
        rw [not_le, abs_lt] at hcon
        exact h ⟨by linarith, by linarith⟩
      rw [hr2] at hd
      have h1 : 1 ≤ 1 / (4 * a) * (x - a) ^ 2 := by
        rw [div_mul_eq_mul_div, one_mul, le_div_iff₀ (by positivity)]
        linarith
      calc Real.exp (-x) * x ^ (a - 1) = 1 * (Real.exp (-x) * x ^ (a - 1)) := (one_mul _).symm
        _ ≤ 1 / (4 * a) * (x - a) ^ 2 * (Real.exp (-x) * x ^ (a - 1)) := by gcongr
        _ = _ := by ring
  have iM : IntegrableOn ((Icc (a - r) (a + r)).indicator fun _ => M) (Ioi 0) := by
    refine IntegrableOn.mono_set (t := univ) ?_ (subset_univ _)
    rw [integrableOn_univ, integrable_indicator_iff measurableSet_Icc]
    exact integrableOn_const (by simp)
  have hq : IntegrableOn (fun x : ℝ => Real.exp (-x) * x ^ (a + 1 + 1 - 1)
      + (-2 * a) * (Real.exp (-x) * x ^ (a + 1 - 1)) + a ^ 2 * (Real.exp (-x) * x ^ (a - 1))) (Ioi 0) :=
    (i2.add (i1.const_mul _)).add (i0.const_mul _)
  have hint := setIntegral_mono_on i0 (iM.add (hq.const_mul (1 / (4 * a)))) measurableSet_Ioi hpt
  have hadd : ∫ x in Ioi (0 : ℝ), ((Icc (a - r) (a + r)).indicator (fun _ => M) x
      + 1 / (4 * a) * (Real.exp (-x) * x ^ (a + 1 + 1 - 1) + (-2 * a) * (Real.exp (-x) * x ^ (a + 1 - 1))
        + a ^ 2 * (Real.exp (-x) * x ^ (a - 1))))
      = (∫ x in Ioi (0 : ℝ), (Icc (a - r) (a + r)).indicator (fun _ => M) x)
        + 1 / (4 * a) * (Real.Gamma (a + 1 + 1) + (-2 * a) * Real.Gamma (a + 1) + a ^ 2 * Real.Gamma a) := by
    have i12 : IntegrableOn (fun x : ℝ => Real.exp (-x) * x ^ (a + 1 + 1 - 1)
        + (-2 * a) * (Real.exp (-x) * x ^ (a + 1 - 1))) (Ioi 0) := i2.add (i1.const_mul _)
    rw [integral_add iM (hq.const_mul _), integral_const_mul, integral_add i12 (i0.const_mul _),
      integral_add i2 (i1.const_mul _), integral_const_mul, integral_const_mul, ← g0, ← g1, ← g2]
  have hind : ∫ x in Ioi (0 : ℝ), (Icc (a - r) (a + r)).indicator (fun _ => M) x ≤ 2 * r * M := by
    have h1 : ∫ x in Ioi (0 : ℝ), (Icc (a - r) (a + r)).indicator (fun _ => M) x
        ≤ ∫ x, (Icc (a - r) (a + r)).indicator (fun _ => M) x := by
      refine setIntegral_le_integral ?_ (Eventually.of_forall fun x => indicator_nonneg (fun _ _ => hM0) x)
      rw [integrable_indicator_iff measurableSet_Icc]
      exact integrableOn_const (by simp)
    refine h1.trans (le_of_eq ?_)
    rw [integral_indicator measurableSet_Icc, setIntegral_const, smul_eq_mul, Measure.real, Real.volume_Icc,
      ENNReal.toReal_ofReal (by linarith)]
    ring
  simp only [Pi.add_apply] at hint
  rw [hadd, ← g0, Real.Gamma_add_one (by linarith : a + 1 ≠ 0), Real.Gamma_add_one ha0.ne'] at hint
  have e : 1 / (4 * a) * ((a + 1) * (a * Real.Gamma a) + -2 * a * (a * Real.Gamma a) + a ^ 2 * Real.Gamma a)
      = Real.Gamma a / 4 := by
    field_simp
    ring
  rw [e] at hint
  rw [hr] at hind
  linarith

/-- At its mean the Gamma density with a small standard deviation is large. -/
theorem gammaLP_mean_ge {σ y : ℝ} (hσ : 0 < σ) (hy : σ < y) :
    -Real.log σ - (Real.log (16 / 3) + 1) ≤ gammaLP (y ^ 2 / σ ^ 2) (y / σ ^ 2) y := by
  have hy0 : 0 < y := hσ.trans hy
  set a := y ^ 2 / σ ^ 2 with ha
  have ha1 : 1 < a := by
    rw [ha, one_lt_div (by positivity)]
    exact pow_lt_pow_left₀ hy hσ.le (by norm_num)
  have ha0 : 0 < a := by linarith
  have ha2 : 0 < a - 1 := by linarith
  have hs : Real.sqrt a = y / σ := by rw [ha, ← div_pow, Real.sqrt_sq (by positivity)]
  have h1 := Real.log_le_log (Real.Gamma_pos_of_pos ha0) (Gamma_le_peak ha1)
  rw [hs, Real.log_mul (by positivity) (by positivity), Real.log_mul (by norm_num) (by positivity),
    Real.log_mul (by positivity) (by positivity), Real.log_rpow ha2, Real.log_exp] at h1
  have h2 : (a - 1) * Real.log (a - 1) ≤ (a - 1) * Real.log a :=
    mul_le_mul_of_nonneg_left (Real.log_le_log ha2 (by linarith)) ha2.le
  have e1 : y / σ ^ 2 = a / y := by
    rw [ha]
    field_simp
  have e2 : Real.log (a / y) = Real.log a - Real.log y := Real.log_div ha0.ne' hy0.ne'
  have e3 : Real.log a = 2 * (Real.log y - Real.log σ) := by
    rw [ha, ← div_pow, Real.log_pow, Real.log_div hy0.ne' hσ.ne']
    norm_num
  have e4 : Real.log (y / σ) = Real.log y - Real.log σ := Real.log_div hy0.ne' hσ.ne'
  unfold gammaLP
  rw [e1, e2, div_mul_cancel₀ _ hy0.ne']
  rw [e4] at h1
  nlinarith

theorem continuousOn_gammaLP {α : Type} [TopologicalSpace α] {mean noise : α → ℝ} {s : Set α} (y : ℝ)
    (hm : ContinuousOn mean s) (hn : ContinuousOn noise s) (hm0 : ∀ a ∈ s, 0 < mean a) (hn0 : ∀ a ∈ s, 0 < noise a) :
    ContinuousOn (fun a => gammaLP (mean a ^ 2 / noise a ^ 2) (mean a / noise a ^ 2) y) s := by
  unfold gammaLP
  have hn2 : ∀ a ∈ s, noise a ^ 2 ≠ 0 := fun a ha => (pow_pos (hn0 a ha) 2).ne'
  have h1 : ContinuousOn (fun a => mean a ^ 2 / noise a ^ 2) s := (hm.pow 2).div (hn.pow 2) hn2
  have h2 : ContinuousOn (fun a => mean a / noise a ^ 2) s := hm.div (hn.pow 2) hn2
  refine (((h1.mul (h2.log fun a ha => ?_)).add ((h1.sub continuousOn_const).mul continuousOn_const)).sub
    (h2.mul continuousOn_const)).sub (ContinuousOn.logGamma h1 fun a ha => ?_)
  · exact (div_pos (hm0 a ha) (pow_pos (hn0 a ha) 2)).ne'
  · exact div_pos (pow_pos (hm0 a ha) 2) (pow_pos (hn0 a ha) 2)

end PV
