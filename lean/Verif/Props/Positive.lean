import Verif.Lemmas.Gamma
import Mathlib.Topology.Order.OrderClosed
import Verif.Model.Likelihood

/-!
# C44, C45: positivity map and Gamma parametrisation
-/

namespace PV
open Real MeasureTheory ProbabilityTheory

theorem toPositive_of_le {x t c : ℝ} (hc : c ≤ t) (hx : t ≤ x) : toPositive x t c = x := by
  unfold toPositive
  rw [if_neg (not_lt.2 hx)]
  exact max_eq_left (hc.trans hx)

theorem toPositive_of_lt {x t c : ℝ} (hx : x < t) :
    toPositive x t c = max (exp (x - t) * t) c := by
  unfold toPositive
  rw [if_pos hx]

/-- **C44**: the mapped mean is positive (at least `1e-10`). -/
theorem C44_positive (x : ℝ) : 0 < toPositive x 1e-5 ∧ (1e-10 : ℝ) ≤ toPositive x 1e-5 := by
  have h : (1e-10 : ℝ) ≤ toPositive x 1e-5 := le_max_right _ _
  exact ⟨lt_of_lt_of_le (by norm_num) h, h⟩

/-- **C44**: values at or above the threshold are unchanged. -/
theorem C44_identity {x : ℝ} (hx : 1e-5 ≤ x) : toPositive x 1e-5 = x :=
  toPositive_of_le (by norm_num) hx

/-- **C44**: the map is non-decreasing. -/
theorem C44_monotone : Monotone fun x => toPositive x 1e-5 := by
  intro x y hxy
  have ht : (0 : ℝ) < 1e-5 := by norm_num
  simp only
  by_cases hy : y < 1e-5
  · rw [toPositive_of_lt hy, toPositive_of_lt (lt_of_le_of_lt hxy hy)]
    refine max_le_max ?_ le_rfl
    exact mul_le_mul_of_nonneg_right (exp_le_exp.2 (by linarith)) ht.le
  · rw [not_lt] at hy
    rw [toPositive_of_le (by norm_num) hy]
    by_cases hx : x < 1e-5
    · rw [toPositive_of_lt hx]
      refine max_le ?_ ?_
      · have : exp (x - 1e-5) ≤ 1 := exp_le_one_iff.2 (by linarith)
        nlinarith
      · exact le_trans (by norm_num) hy
    · rw [toPositive_of_le (by norm_num) (not_lt.1 hx)]
      exact hxy

/-- **C44**: the map is continuous everywhere, in particular at the threshold. -/
theorem C44_continuous : Continuous fun x => toPositive x 1e-5 := by
  unfold toPositive
  refine Continuous.max ?_ continuous_const
  have : (fun x : ℝ => if x < 1e-5 then exp (x - 1e-5) * 1e-5 else x)
      = fun x : ℝ => if (1e-5 : ℝ) ≤ x then x else exp (x - 1e-5) * 1e-5 := by
    funext x
    by_cases h : x < 1e-5
    · rw [if_pos h, if_neg (not_le.2 h)]
    · rw [if_neg h, if_pos (not_lt.1 h)]
  rw [this]
  refine Continuous.if_le continuous_id (by fun_prop) continuous_const continuous_id ?_
  intro x hx
  rw [← hx]
  simp

example : toPositive 3 1e-5 = 3 := C44_identity (by norm_num)
/-- Strictly below the threshold the value does change. -/
example : toPositive 0 1e-5 ≠ 0 := (C44_positive 0).1.ne'

/-- **C45**: for positive `loc` and `scale` the parameters are valid and the Gamma
distribution they define has mean `loc` and variance `scale ^ 2`. -/
theorem C45_moments {loc scale : ℝ} (hl : 0 < loc) (hs : 0 < scale) :
    0 < (gammaReparametrized loc scale).concentration ∧
    0 < (gammaReparametrized loc scale).rate ∧
    ∫ x, x ∂gammaMeasure (gammaReparametrized loc scale).concentration
      (gammaReparametrized loc scale).rate = loc ∧
    variance (fun x => x) (gammaMeasure (gammaReparametrized loc scale).concentration
      (gammaReparametrized loc scale).rate) = scale ^ 2 := by
  have h1 : 0 < (gammaReparametrized loc scale).concentration := by
    simp only [gammaReparametrized]; positivity
  have h2 : 0 < (gammaReparametrized loc scale).rate := by
    simp only [gammaReparametrized]; positivity
  refine ⟨h1, h2, ?_, ?_⟩
  · rw [gamma_mean h1 h2]
    simp only [gammaReparametrized]
    field_simp
  · rw [gamma_variance h1 h2]
    simp only [gammaReparametrized]
    field_simp

/-- **C44**, **C45** for the Gamma forecaster: with positive noise every observation gets a valid
Gamma distribution, whatever the additive mean; its standard deviation is the noise, and its mean is
positive and equal to the additive mean where that is at least `1e-5`. -/
theorem C44_gamma_observation {noise : ℝ} (hn : 0 < noise) (scale : ℝ) (mean : Tensor ℝ) :
    (univariateObs .gamma noise scale mean).length = mean.data.length ∧
    ∀ (k : Nat) (m : ℝ), mean.data[k]? = some m →
      ∃ p, (univariateObs .gamma noise scale mean)[k]? = some (.gamma p) ∧
        0 < p.concentration ∧ 0 < p.rate ∧ 0 < ∫ x, x ∂gammaMeasure p.concentration p.rate ∧
        (1e-5 ≤ m → ∫ x, x ∂gammaMeasure p.concentration p.rate = m) ∧
        variance (fun x => x) (gammaMeasure p.concentration p.rate) = noise ^ 2 := by
  refine ⟨by simp [univariateObs], fun k m hk => ?_⟩
  obtain ⟨h1, h2, h3, h4⟩ := C45_moments (C44_positive m).1 hn
  refine ⟨gammaReparametrized (toPositive m 1e-5) noise, by simp [univariateObs, hk], h1, h2, ?_, ?_, h4⟩
  · rw [h3]
    exact (C44_positive m).1
  · intro hm
    rw [h3, C44_identity hm]

/-- **C44** for the negative binomial forecaster: with positive noise and scale every observation
gets positive mean and concentration, whatever the additive mean. -/
theorem C44_count_observation {noise scale : ℝ} (hn : 0 < noise) (hs : 0 < scale)
    (mean : Tensor ℝ) :
    (univariateObs .negbinomial noise scale mean).length = mean.data.length ∧
    ∀ (k : Nat) (m : ℝ), mean.data[k]? = some m →
      ∃ μ κ, (univariateObs .negbinomial noise scale mean)[k]? = some (.negBinomial2 μ κ) ∧
        0 < μ ∧ 0 < κ ∧ (1e-5 ≤ m → μ = m * scale) := by
  refine ⟨by simp [univariateObs], fun k m hk => ⟨toPositive m 1e-5 * scale, noise * scale,
    by simp [univariateObs, hk], mul_pos (C44_positive m).1 hs, mul_pos hn hs, fun hm => ?_⟩⟩
  rw [C44_identity hm]

/-- Negative entries occur. -/
example : (⟨[2, 1], [3, -4]⟩ : Tensor ℝ).data[(1 : Nat)]? = some (-4 : ℝ) ∧ (0 : ℝ) < 1 / 2 :=
  ⟨rfl, by norm_num⟩

example : (gammaReparametrized 2 3).rate = 2 / 9 := by
  simp only [gammaReparametrized]; norm_num

end PV
