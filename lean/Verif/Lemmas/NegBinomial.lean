import Mathlib.Analysis.SpecialFunctions.Gamma.Deriv
import Mathlib.MeasureTheory.Integral.Gamma
import Verif.Model.Density

/-!
# Bounds and continuity of the negative binomial log density
-/

namespace PV
open MeasureTheory Filter Set

/-- `t^k e^{-t} ≤ Γ(k + 1)`. -/
theorem rpow_mul_exp_le_Gamma {k t : ℝ} (hk : 0 ≤ k) (ht : 0 < t) :
    t ^ k * Real.exp (-t) ≤ Real.Gamma (k + 1) := by
  have hpt : t ^ k * Real.exp (-t) ≤ k ^ k * Real.exp (-k) := by
    rcases hk.eq_or_lt with rfl | hk
    · simp only [Real.rpow_zero, one_mul, neg_zero, Real.exp_zero]
      exact Real.exp_le_one_iff.2 (by linarith)
    · rw [Real.rpow_def_of_pos ht, Real.rpow_def_of_pos hk, ← Real.exp_add, ← Real.exp_add, Real.exp_le_exp]
      have h1 := Real.log_le_sub_one_of_pos (div_pos ht hk)
      rw [Real.log_div ht.ne' hk.ne'] at h1
      have h2 := mul_le_mul_of_nonneg_right h1 hk.le
      have h3 : (t / k - 1) * k = t - k := by field_simp
      rw [h3] at h2
      linarith
  refine hpt.trans ?_
  have hint : IntegrableOn (fun u : ℝ => Real.exp (-u) * u ^ (k + 1 - 1)) (Ioi 0) :=
    Real.GammaIntegral_convergent (by linarith)
  rw [Real.Gamma_eq_integral (by linarith : 0 < k + 1)]
  calc k ^ k * Real.exp (-k) = ∫ u in Ioi k, k ^ k * Real.exp (-u) := by
        rw [integral_const_mul, integral_exp_neg_Ioi]
    _ ≤ ∫ u in Ioi k, Real.exp (-u) * u ^ (k + 1 - 1) := by
        refine setIntegral_mono_on ((integrableOn_exp_neg_Ioi k).const_mul _)
          (hint.mono_set (Ioi_subset_Ioi hk)) measurableSet_Ioi fun u hu => ?_
        rw [mul_comm, add_sub_cancel_right]
        exact mul_le_mul_of_nonneg_left (Real.rpow_le_rpow hk (le_of_lt hu) hk) (Real.exp_nonneg _)
    _ ≤ _ := by
        refine setIntegral_mono_set hint ?_ (LE.le.eventuallyLE (Ioi_subset_Ioi hk))
        refine (ae_restrict_mem measurableSet_Ioi).mono fun u hu => ?_
        have : (0 : ℝ) < u := hu
        simp only [Pi.zero_apply]
        positivity

theorem integrableOn_rpow_exp {a r : ℝ} (ha : 0 < a) (hr : 0 < r) :
    IntegrableOn (fun t : ℝ => t ^ (a - 1) * Real.exp (-(r * t))) (Ioi 0) := by
  have h := (integrableOn_Ioi_comp_mul_left_iff (fun u : ℝ => Real.exp (-u) * u ^ (a - 1)) 0 hr).2
    (by rw [mul_zero]; exact Real.GammaIntegral_convergent ha)
  have h' := h.const_mul (r ^ (a - 1))⁻¹
  refine IntegrableOn.congr_fun h' (fun t ht => ?_) measurableSet_Ioi
  have ht : (0 : ℝ) < t := ht
  rw [Real.mul_rpow hr.le ht.le]
  have : r ^ (a - 1) ≠ 0 := (Real.rpow_pos_of_pos hr _).ne'
  field_simp

/-- A probability is at most 1. -/
theorem negBinomial2LP_nonpos {mean conc k : ℝ} (hm : 0 < mean) (hc : 0 < conc) (hk : 0 ≤ k) :
    negBinomial2LP mean conc k ≤ 0 := by
  unfold negBinomial2LP
  set r := conc / mean with hr
  have hr0 : 0 < r := div_pos hc hm
  have h1 : (1 / (1 + r)) ^ (conc + k) * Real.Gamma (conc + k)
      ≤ Real.Gamma (k + 1) * ((1 / r) ^ conc * Real.Gamma conc) := by
    rw [← Real.integral_rpow_mul_exp_neg_mul_Ioi (by linarith) (by linarith : 0 < 1 + r),
      ← Real.integral_rpow_mul_exp_neg_mul_Ioi hc hr0, ← integral_const_mul]
    refine setIntegral_mono_on (integrableOn_rpow_exp (by linarith) (by linarith))
      ((integrableOn_rpow_exp hc hr0).const_mul _) measurableSet_Ioi fun t ht => ?_
    have ht : (0 : ℝ) < t := ht
    have h2 := rpow_mul_exp_le_Gamma hk ht
    have h3 : t ^ (conc + k - 1) * Real.exp (-((1 + r) * t))
        = (t ^ k * Real.exp (-t)) * (t ^ (conc - 1) * Real.exp (-(r * t))) := by
      rw [show conc + k - 1 = k + (conc - 1) by ring, Real.rpow_add ht,
        show -((1 + r) * t) = -t + -(r * t) by ring, Real.exp_add]
      ring
    rw [h3]
    exact mul_le_mul_of_nonneg_right h2 (by positivity)
  have hG1 : 0 < Real.Gamma (conc + k) := Real.Gamma_pos_of_pos (by linarith)
  have hG2 : 0 < Real.Gamma conc := Real.Gamma_pos_of_pos hc
  have hG3 : 0 < Real.Gamma (k + 1) := Real.Gamma_pos_of_pos (by linarith)
  have h2 := Real.log_le_log (by positivity) h1
  rw [Real.log_mul (by positivity) hG1.ne', Real.log_mul hG3.ne' (by positivity),
    Real.log_mul (by positivity) hG2.ne', Real.log_rpow (by positivity), Real.log_rpow (by positivity),
    one_div, one_div, Real.log_inv, Real.log_inv] at h2
  have h3 : Real.log (r / (1 + r)) = Real.log r - Real.log (1 + r) :=
    Real.log_div hr0.ne' (by positivity)
  change _ - _ - _ + conc * Real.log (r / (1 + r)) - k * Real.log (1 + r) ≤ 0
  rw [h3]
  linarith

/-- The part of the log density that does not depend on the mean. -/
noncomputable def negBinomialFactor (k conc : ℝ) : ℝ :=
  Real.log (Real.Gamma (conc + k)) - Real.log (Real.Gamma conc) - Real.log (Real.Gamma (k + 1))

theorem negBinomial2LP_le_factor {mean conc k : ℝ} (hm : 0 < mean) (hc : 0 < conc) (hk : 0 ≤ k) :
    negBinomial2LP mean conc k ≤ negBinomialFactor k conc := by
  unfold negBinomial2LP negBinomialFactor
  have hr0 : 0 < conc / mean := div_pos hc hm
  have h1 : Real.log (conc / mean / (1 + conc / mean)) ≤ 0 := by
    refine Real.log_nonpos (by positivity) ?_
    rw [div_le_one (by positivity)]
    linarith
  have h2 : 0 ≤ Real.log (1 + conc / mean) := Real.log_nonneg (by linarith)
  have h3 := mul_nonneg hk h2
  have h4 := mul_nonpos_of_nonneg_of_nonpos hc.le h1
  simp only
  linarith

theorem continuousAt_logGamma {s : ℝ} (hs : 0 < s) : ContinuousAt (fun s => Real.log (Real.Gamma s)) s := by
  refine ContinuousAt.log ?_ (Real.Gamma_pos_of_pos hs).ne'
  refine (Real.differentiableAt_Gamma fun m => ?_).continuousAt
  have : (0 : ℝ) ≤ m := Nat.cast_nonneg m
  intro h
  linarith

theorem ContinuousOn.logGamma {α : Type} [TopologicalSpace α] {f : α → ℝ} {s : Set α} (hf : ContinuousOn f s)
    (h0 : ∀ a ∈ s, 0 < f a) : ContinuousOn (fun a => Real.log (Real.Gamma (f a))) s :=
  fun a ha => (continuousAt_logGamma (h0 a ha)).comp_continuousWithinAt (hf a ha)

theorem continuousOn_negBinomial2LP {α : Type} [TopologicalSpace α] {mean conc : α → ℝ} {s : Set α} {k : ℝ}
    (hk : 0 ≤ k) (hm : ContinuousOn mean s) (hc : ContinuousOn conc s) (hm0 : ∀ a ∈ s, 0 < mean a)
    (hc0 : ∀ a ∈ s, 0 < conc a) : ContinuousOn (fun a => negBinomial2LP (mean a) (conc a) k) s := by
  unfold negBinomial2LP
  have hr : ContinuousOn (fun a => conc a / mean a) s := hc.div hm fun a ha => (hm0 a ha).ne'
  have hr0 : ∀ a ∈ s, 0 < conc a / mean a := fun a ha => div_pos (hc0 a ha) (hm0 a ha)
  have h1 : ContinuousOn (fun a => 1 + conc a / mean a) s := continuousOn_const.add hr
  refine ((((ContinuousOn.logGamma (hc.add continuousOn_const) fun a ha => ?_).sub (ContinuousOn.logGamma hc hc0)).sub
    continuousOn_const).add (hc.mul (ContinuousOn.log (hr.div h1 fun a ha => ?_) fun a ha => ?_))).sub
    (continuousOn_const.mul (ContinuousOn.log h1 fun a ha => ?_))
  · have := hc0 a ha
    simp only [Pi.add_apply]
    linarith
  · have := hr0 a ha
    linarith
  · have := hr0 a ha
    have h2 : 0 < 1 + conc a / mean a := by linarith
    exact (div_pos this h2).ne'
  · have := hr0 a ha
    linarith

theorem continuousOn_negBinomialFactor {k : ℝ} (hk : 0 ≤ k) : ContinuousOn (negBinomialFactor k) (Ioi 0) := by
  unfold negBinomialFactor
  refine ((ContinuousOn.logGamma (continuousOn_id.add continuousOn_const) fun a ha => ?_).sub
    (ContinuousOn.logGamma continuousOn_id fun a ha => ha)).sub continuousOn_const
  have : (0 : ℝ) < a := ha
  change 0 < a + k
  linarith

/-- A positive count is impossible with concentration 0. -/
theorem tendsto_negBinomialFactor {k : ℝ} (hk : 0 < k) :
    Tendsto (negBinomialFactor k) (nhdsWithin 0 (Ioi 0)) atBot := by
  have h1 : Tendsto (fun c : ℝ => Real.log (Real.Gamma (c + k)) - Real.log (Real.Gamma (c + 1))
      - Real.log (Real.Gamma (k + 1))) (nhdsWithin 0 (Ioi 0))
      (nhds (Real.log (Real.Gamma (0 + k)) - Real.log (Real.Gamma (0 + 1)) - Real.log (Real.Gamma (k + 1)))) := by
    refine Tendsto.mono_left ?_ nhdsWithin_le_nhds
    have a : ContinuousAt (fun c : ℝ => Real.log (Real.Gamma (c + k))) 0 :=
      ContinuousAt.comp (f := fun c : ℝ => c + k) (g := fun s => Real.log (Real.Gamma s))
        (continuousAt_logGamma (by simpa using hk)) (by fun_prop)
    have b : ContinuousAt (fun c : ℝ => Real.log (Real.Gamma (c + 1))) 0 :=
      ContinuousAt.comp (f := fun c : ℝ => c + 1) (g := fun s => Real.log (Real.Gamma s))
        (continuousAt_logGamma (by norm_num)) (by fun_prop)
    exact (a.sub b).sub continuousAt_const
  have h2 := h1.add_atBot (Real.tendsto_log_nhdsGT_zero)
  refine h2.congr' ?_
  filter_upwards [self_mem_nhdsWithin] with c hc
  have hc : (0 : ℝ) < c := hc
  unfold negBinomialFactor
  rw [Real.Gamma_add_one hc.ne', Real.log_mul hc.ne' (Real.Gamma_pos_of_pos hc).ne']
  ring

end PV
