import Mathlib.Data.Real.StarOrdered
import Mathlib.LinearAlgebra.Matrix.Block
import Mathlib.LinearAlgebra.Matrix.NonsingularInverse
import Mathlib.LinearAlgebra.Matrix.Notation
import Mathlib.LinearAlgebra.Matrix.PosDef
import Verif.Lemmas.Tensor
import Verif.Model.Multivariate

/-!
# C46, C68: the observation distribution of the hierarchical model
-/

namespace PV
open Matrix Tensor

/-- Cholesky factors of correlation matrices: lower triangular with positive diagonal, rows of
length 1. -/
structure CorrFactor {n : Nat} (L : Matrix (Fin n) (Fin n) ℝ) : Prop where
  lower : ∀ i j, i < j → L i j = 0
  diag : ∀ i, 0 < L i i
  unit : ∀ i, ∑ k, L i k ^ 2 = 1

/-- The sampled correlation matrix. -/
def corrOf {n : Nat} (L : Matrix (Fin n) (Fin n) ℝ) : Matrix (Fin n) (Fin n) ℝ := L * Lᵀ

/-- The product is a correlation matrix: symmetric with unit diagonal. -/
theorem corrOf_isCorr {n : Nat} {L : Matrix (Fin n) (Fin n) ℝ} (h : CorrFactor L) :
    (corrOf L).IsSymm ∧ ∀ i, corrOf L i i = 1 := by
  refine ⟨by unfold corrOf Matrix.IsSymm; rw [transpose_mul, transpose_transpose], fun i => ?_⟩
  rw [corrOf, Matrix.mul_apply, ← h.unit i]
  exact Finset.sum_congr rfl fun k _ => by rw [transpose_apply]; ring

theorem obsScaleTril_apply {n : Nat} (std : Fin n → ℝ) (L : Matrix (Fin n) (Fin n) ℝ) (i j : Fin n) :
    obsScaleTril std L i j = std i * L i j * std j := by
  unfold obsScaleTril
  rw [mul_diagonal, diagonal_mul]

/-- **C46**, validity: with positive standard deviations the covariance of the observations is
symmetric and positive definite. -/
theorem C46_valid {n : Nat} {std : Fin n → ℝ} {L : Matrix (Fin n) (Fin n) ℝ} (hs : ∀ i, 0 < std i)
    (hL : CorrFactor L) : (mvnCovariance (obsScaleTril std L)).PosDef := by
  have hlow : (obsScaleTril std L).IsLowerTriangular := by
    intro i j hij
    rw [obsScaleTril_apply, hL.lower i j hij]
    ring
  have hdet : IsUnit (obsScaleTril std L).det := by
    rw [det_of_isLowerTriangular _ hlow, isUnit_iff_ne_zero]
    refine Finset.prod_ne_zero_iff.2 fun i _ => ?_
    rw [obsScaleTril_apply]
    exact (mul_pos (mul_pos (hs i) (hL.diag i)) (hs i)).ne'
  have := PosDef.mul_conjTranspose_self (obsScaleTril std L)
    (vecMul_injective_of_isUnit ((isUnit_iff_isUnit_det _).2 hdet))
  rwa [conjTranspose_eq_transpose_of_trivial] at this

/-- **C46**, the covariance that the model has. -/
theorem C46_actual {n : Nat} (std : Fin n → ℝ) (L : Matrix (Fin n) (Fin n) ℝ) (i j : Fin n) :
    mvnCovariance (obsScaleTril std L) i j
      = std i * std j * ∑ k, std k ^ 2 * (L i k * L j k) := by
  rw [mvnCovariance, Matrix.mul_apply, Finset.mul_sum]
  refine Finset.sum_congr rfl fun k _ => ?_
  rw [transpose_apply, obsScaleTril_apply, obsScaleTril_apply]
  ring

/-- **C46** where it holds: if all standard deviations are 1, and up to a factor if they are all
equal; so the correlations are right if all standard deviations are equal.
Missing: everything else (`C46_covariance_refuted`, `C46_correlation_refuted`). -/
theorem C46_equal_partial {n : Nat} {σ : ℝ} {std : Fin n → ℝ} (h : ∀ i, std i = σ)
    (L : Matrix (Fin n) (Fin n) ℝ) (i j : Fin n) :
    mvnCovariance (obsScaleTril std L) i j = σ ^ 2 * (std i * std j * corrOf L i j) := by
  rw [C46_actual, corrOf, Matrix.mul_apply]
  simp only [h, ← Finset.mul_sum, transpose_apply]
  ring

/-- Two series with correlation 3/5. -/
noncomputable def exL46 : Matrix (Fin 2) (Fin 2) ℝ := !![1, 0; 3/5, 4/5]

theorem exL46_factor : CorrFactor exL46 := by
  refine ⟨?_, ?_, ?_⟩
  · intro i j hij
    fin_cases i <;> fin_cases j <;> simp [exL46] at hij ⊢
  · intro i; fin_cases i <;> simp [exL46]
  · intro i; fin_cases i <;> simp [exL46, Fin.sum_univ_two] <;> norm_num

/-- **C46** is false: with standard deviations 2 and 2 the variance is 16 instead of 4. -/
theorem C46_covariance_refuted :
    mvnCovariance (obsScaleTril ![2, 2] exL46) 0 0 = 16 ∧
      (![2, 2] : Fin 2 → ℝ) 0 * (![2, 2] : Fin 2 → ℝ) 0 * corrOf exL46 0 0 = 4 := by
  rw [C46_actual, corrOf, Matrix.mul_apply]
  simp [Fin.sum_univ_two, exL46]
  norm_num

/-- **C46** is false for correlations too: with standard deviations 1 and 2 and sampled correlation
3/5 the square of the correlation of the observations is not 9/25. -/
theorem C46_correlation_refuted :
    corrOf exL46 0 1 = 3 / 5 ∧
    mvnCovariance (obsScaleTril ![1, 2] exL46) 0 1 ^ 2 ≠ (3 / 5) ^ 2 *
      (mvnCovariance (obsScaleTril ![1, 2] exL46) 0 0 *
        mvnCovariance (obsScaleTril ![1, 2] exL46) 1 1) := by
  rw [C46_actual, C46_actual, C46_actual, corrOf, Matrix.mul_apply]
  simp [Fin.sum_univ_two, exL46]
  norm_num

/-! ## C68: observations meet the means of their series and time -/

theorem timeBySeries_get? {K : Type} [Zero K] {t : Tensor K} {N T : Nat} (hs : t.shape = [N, T, 1])
    (hw : t.WF) : ∃ r, timeBySeries t = .ok r ∧ r.shape = [T, N] ∧
      ∀ i j, i < N → j < T → r.get? [j, i] = t.get? [i, j, 0] := by
  have h1 : squeezeLast t = .ok ⟨[N, T], t.data⟩ := by
    unfold squeezeLast
    rw [hs]
    rfl
  refine ⟨_, by unfold timeBySeries; rw [h1]; rfl, rfl, ?_⟩
  intro i j hi hj
  have hw' : (⟨[N, T], t.data⟩ : Tensor K).WF := by
    unfold WF at hw ⊢
    rw [hs] at hw
    simpa [size] using hw
  have := get?_transpose hw' (idx := [i, j]) ⟨hi, hj, trivial⟩
  simp only [List.reverse_cons, List.reverse_nil, List.nil_append, List.cons_append] at this
  rw [this]
  simp [get?, ravel, size, hs]

/-- **C68**: the observation of series `i` at the `j`-th time is compared with the mean of series `i`
at the `j`-th time. -/
theorem C68_panel {K : Type} [Zero K] {y mean : Tensor K} {N T : Nat} (hy : y.shape = [N, T, 1])
    (hyw : y.WF) (hm : mean.shape = [N, T, 1]) (hmw : mean.WF) :
    ∃ obs loc, multivariateObs false y mean = .ok (obs, loc) ∧ obs.shape = loc.shape ∧
      ∀ i j, i < N → j < T →
        obs.get? [j, i] = y.get? [i, j, 0] ∧ loc.get? [j, i] = mean.get? [i, j, 0] := by
  obtain ⟨a, ha, hsa, hga⟩ := timeBySeries_get? hy hyw
  obtain ⟨b, hb, hsb, hgb⟩ := timeBySeries_get? hm hmw
  refine ⟨a, b, ?_, by rw [hsa, hsb], fun i j hi hj => ⟨hga i j hi hj, hgb i j hi hj⟩⟩
  unfold multivariateObs
  rw [ha]
  simp only [bind, Except.bind]
  rw [if_neg (by simp), hb]
  rfl

/-- **C68** for a single series, whose mean is a column or has a leading axis of size 1. -/
theorem C68_single {K : Type} [Zero K] {y mean : Tensor K} {T : Nat} (hy : y.shape = [1, T, 1])
    (hyw : y.WF) (hm : mean.shape = [1, T, 1] ∨ mean.shape = [T, 1]) (hmw : mean.WF) :
    ∃ obs loc, multivariateObs true y mean = .ok (obs, loc) ∧ obs.shape = loc.shape ∧
      ∀ j < T, obs.get? [j, 0] = y.get? [0, j, 0] ∧
        loc.get? [j, 0] = mean.get? (if mean.shape = [T, 1] then [j, 0] else [0, j, 0]) := by
  obtain ⟨a, ha, hsa, hga⟩ := timeBySeries_get? hy hyw
  have hlen : mean.data.length = T := by
    unfold WF at hmw
    rcases hm with h | h <;> rw [hmw, h] <;> simp [size]
  refine ⟨a, ⟨[T, 1], mean.data⟩, ?_, hsa, fun j hj => ⟨hga 0 j (by omega) hj, ?_⟩⟩
  · unfold multivariateObs
    rw [ha]
    simp only [bind, Except.bind, if_true]
    unfold reshapeInfer
    rw [if_pos ⟨by decide, Nat.mod_one _⟩, hlen, Nat.div_one]
    rfl
  · rcases hm with h | h
    · rw [if_neg (by rw [h]; simp), get?, get?, h]
      simp [ravel, size]
    · rw [if_pos h, get?, get?, h]

/-! ## Non-vacuity -/

example : CorrFactor exL46 ∧ ∀ i, (0 : ℝ) < (![1, 2] : Fin 2 → ℝ) i :=
  ⟨exL46_factor, fun i => by fin_cases i <;> norm_num⟩

example : multivariateObs false (⟨[2, 3, 1], [1, 2, 3, 4, 5, 6]⟩ : Tensor ℤ)
    ⟨[2, 3, 1], [10, 20, 30, 40, 50, 60]⟩
    = .ok (⟨[3, 2], [1, 4, 2, 5, 3, 6]⟩, ⟨[3, 2], [10, 40, 20, 50, 30, 60]⟩) := by decide +kernel

end PV
