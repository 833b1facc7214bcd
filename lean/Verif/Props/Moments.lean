import Verif.Lemmas.MultiNormal
import Verif.Props.Multivariate
import Verif.Props.Positive

/-!
# C102: the observations are centred on the mean of the model

The log densities that make up the posterior (C85, C90) are those of probability distributions, with
the mean and the spread that the model announces.
-/

namespace PV
open MeasureTheory Set Matrix

/-- **C102**, normal likelihood: total mass one, mean `m`, standard deviation `σ`. -/
theorem C102_normal {σ : ℝ} (hσ : 0 < σ) (scale : ℝ) (mean : Tensor ℝ) {j : Nat} {m : ℝ}
    (hm : mean.data[j]? = some m) :
    ∃ d, (univariateObs .normal σ scale mean)[j]? = some d ∧
      ∫ y, Real.exp (d.logProb y) = 1 ∧ ∫ y, y * Real.exp (d.logProb y) = m ∧
      ∫ y, (y - m) ^ 2 * Real.exp (d.logProb y) = σ ^ 2 :=
  ⟨.normal m σ, by simp [univariateObs, hm], normal_moments m hσ⟩

/-- **C102**, Gamma likelihood, on the positive numbers: total mass one, mean `m` where `m` is at least
`1e-5` and a small positive number otherwise, standard deviation `σ`. -/
theorem C102_gamma {σ : ℝ} (hσ : 0 < σ) (scale : ℝ) (mean : Tensor ℝ) {j : Nat} {m : ℝ}
    (hm : mean.data[j]? = some m) :
    ∃ d μ, (univariateObs .gamma σ scale mean)[j]? = some d ∧ 0 < μ ∧ (1e-5 ≤ m → μ = m) ∧
      ∫ y in Ioi 0, Real.exp (d.logProb y) = 1 ∧ ∫ y in Ioi 0, y * Real.exp (d.logProb y) = μ ∧
      ∫ y in Ioi 0, (y - μ) ^ 2 * Real.exp (d.logProb y) = σ ^ 2 := by
  have h0 := (C44_positive m).1
  refine ⟨.gamma (gammaReparametrized (toPositive m 1e-5) σ), toPositive m 1e-5, by simp [univariateObs, hm], h0,
    C44_identity, ?_⟩
  have h := gamma_moments (c := (gammaReparametrized (toPositive m 1e-5) σ).concentration)
    (r := (gammaReparametrized (toPositive m 1e-5) σ).rate) (by simp only [gammaReparametrized]; positivity)
    (by simp only [gammaReparametrized]; positivity)
  have e1 : (gammaReparametrized (toPositive m 1e-5) σ).concentration / (gammaReparametrized (toPositive m 1e-5) σ).rate
      = toPositive m 1e-5 := by
    simp only [gammaReparametrized]
    field_simp
  have e2 : (gammaReparametrized (toPositive m 1e-5) σ).concentration
      / (gammaReparametrized (toPositive m 1e-5) σ).rate ^ 2 = σ ^ 2 := by
    simp only [gammaReparametrized]
    field_simp
  rw [e1, e2] at h
  exact h

/-- **C102**, counts: the probabilities of 0, 1, 2, … add up to one; the expected count is `scale`
times the mean of the model (at least `1e-5`), and the variance exceeds the mean by its square divided
by the concentration: a larger noise parameter means *less* spread. -/
theorem C102_counts {σ scale : ℝ} (hσ : 0 < σ) (hs : 0 < scale) (mean : Tensor ℝ) {j : Nat} {m : ℝ}
    (hm : mean.data[j]? = some m) :
    ∃ d μ, (univariateObs .negbinomial σ scale mean)[j]? = some d ∧ 0 < μ ∧ (1e-5 ≤ m → μ = m * scale) ∧
      HasSum (fun k : ℕ => Real.exp (d.logProb k)) 1 ∧
      HasSum (fun k : ℕ => (k : ℝ) * Real.exp (d.logProb k)) μ ∧
      HasSum (fun k : ℕ => ((k : ℝ) - μ) ^ 2 * Real.exp (d.logProb k)) (μ + μ ^ 2 / (σ * scale)) :=
  ⟨.negBinomial2 (toPositive m 1e-5 * scale) (σ * scale), toPositive m 1e-5 * scale, by simp [univariateObs, hm],
    mul_pos (C44_positive m).1 hs, fun h => by rw [C44_identity h],
    negBinomial_moments (mul_pos (C44_positive m).1 hs) (mul_pos hσ hs)⟩

/-- **C102**, several series: the observations of one date have total mass one, their mean is the mean
of the model and their covariance is the one of C46. -/
theorem C102_panel {n : Nat} (loc : Fin n → ℝ) {std : Fin n → ℝ} {L : Matrix (Fin n) (Fin n) ℝ}
    (hs : ∀ i, 0 < std i) (hL : CorrFactor L) :
    ∫ y, Real.exp (mvnLP loc (obsScaleTril std L) y) = 1 ∧
      (∀ i, ∫ y, y i * Real.exp (mvnLP loc (obsScaleTril std L) y) = loc i) ∧
      ∀ i j, ∫ y, (y i - loc i) * (y j - loc j) * Real.exp (mvnLP loc (obsScaleTril std L) y)
        = mvnCovariance (obsScaleTril std L) i j := by
  refine mvn_moments loc (fun i j hij => ?_) fun i => ?_
  · rw [obsScaleTril_apply, hL.lower i j hij]
    ring
  · rw [obsScaleTril_apply]
    have := hL.diag i
    have := hs i
    positivity

/-- **C102**, priors of the trends and of the noise: total mass one. -/
theorem C102_priors (loc : ℝ) {s : ℝ} (hs : 0 < s) :
    ∫ x, Real.exp (normalLP loc s x) = 1 ∧ ∫ x, Real.exp (laplaceLP loc s x) = 1 ∧
      ∫ x in Ioi 0, Real.exp (halfNormalLP s x) = 1 ∧
      ∀ c, 0 < c → ∫ x in Ioi 0, Real.exp (gammaLP c s x) = 1 :=
  ⟨(normal_moments loc hs).1, laplace_mass loc hs, halfNormal_mass hs, fun _ hc => (gamma_moments hc hs).1⟩

/-! ## Examples -/

/-- A mean of three dates. -/
noncomputable def exMean102 : Tensor ℝ := ⟨[3, 1], [2, -1, 5 / 2]⟩

example := C102_normal (σ := 1 / 2) (by norm_num) 1 exMean102 (j := 1) (m := -1) rfl
example := C102_gamma (σ := 1 / 2) (by norm_num) 1 exMean102 (j := 1) (m := -1) rfl
example := C102_counts (σ := 1 / 2) (scale := 100) (by norm_num) (by norm_num) exMean102 (j := 2) (m := 5 / 2) rfl
example := C102_priors 3 (s := 1 / 20) (by norm_num)

/-- Two correlated series. -/
example : ∃ L : Matrix (Fin 2) (Fin 2) ℝ, CorrFactor L ∧ L 1 0 ≠ 0 ∧
    ∀ i j, ∫ y, (y i - ![3, 4] i) * (y j - ![3, 4] j) * Real.exp (mvnLP ![3, 4] (obsScaleTril ![1, 2] L) y)
      = mvnCovariance (obsScaleTril ![1, 2] L) i j :=
  ⟨exL46, exL46_factor, by simp [exL46], (C102_panel ![3, 4] (by intro i; fin_cases i <;> simp) exL46_factor).2.2⟩

end PV
