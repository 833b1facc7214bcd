import Mathlib.MeasureTheory.Integral.Pi
import Mathlib.MeasureTheory.Measure.Lebesgue.Basic
import Verif.Model.PanelDensity
import Verif.Lemmas.Distributions

/-!
# Moments of the multivariate normal distribution
-/

namespace PV
open MeasureTheory Matrix

variable {n : Nat}

/-- The standard normal density in `n` dimensions. -/
noncomputable def stdNormal (z : Fin n → ℝ) : ℝ := ∏ k, Real.exp (normalLP 0 1 (z k))

theorem integrable_moment (k : ℕ) : Integrable fun x : ℝ => x ^ k * Real.exp (normalLP 0 1 x) := by
  have h : Integrable fun x : ℝ => x ^ (k : ℝ) * Real.exp (-(1 / 2) * x ^ 2) :=
    integrable_rpow_mul_exp_neg_mul_sq (by norm_num) (by
      have : (0 : ℝ) ≤ k := by positivity
      linarith)
  refine (h.mul_const (Real.exp (-(Real.log (2 * Real.pi) / 2)))).congr (Filter.Eventually.of_forall fun x => ?_)
  simp only [Real.rpow_natCast]
  rw [mul_assoc, ← Real.exp_add, normalLP]
  congr 2
  simp only [Real.log_one]
  ring

theorem std_moments : ∫ x, Real.exp (normalLP 0 1 x) = 1 ∧ ∫ x, x * Real.exp (normalLP 0 1 x) = 0 ∧
    ∫ x, x ^ 2 * Real.exp (normalLP 0 1 x) = 1 := by
  obtain ⟨h0, h1, h2⟩ := normal_moments 0 (s := 1) one_pos
  simp only [sub_zero, one_pow] at h2
  exact ⟨h0, h1, h2⟩

/-- The moment of order `e k` in each coordinate `k`. -/
theorem std_product (e : Fin n → ℕ) :
    Integrable (fun z : Fin n → ℝ => (∏ k, z k ^ e k) * stdNormal z) ∧
      ∫ z : Fin n → ℝ, (∏ k, z k ^ e k) * stdNormal z = ∏ k, ∫ x, x ^ e k * Real.exp (normalLP 0 1 x) := by
  have h : (fun z : Fin n → ℝ => (∏ k, z k ^ e k) * stdNormal z)
      = fun z => ∏ k, (z k ^ e k * Real.exp (normalLP 0 1 (z k))) := by
    funext z
    rw [stdNormal, Finset.prod_mul_distrib]
  rw [h]
  exact ⟨Integrable.fintype_prod fun k => integrable_moment (e k),
    integral_fintype_prod_volume_eq_prod fun k x => x ^ e k * Real.exp (normalLP 0 1 x)⟩

theorem std_mass : Integrable (stdNormal (n := n)) ∧ ∫ z : Fin n → ℝ, stdNormal z = 1 := by
  have h := std_product (n := n) fun _ => 0
  simpa [std_moments.1] using h

theorem std_first (i : Fin n) : Integrable (fun z : Fin n → ℝ => z i * stdNormal z) ∧
    ∫ z : Fin n → ℝ, z i * stdNormal z = 0 := by
  have h := std_product (n := n) fun k => if k = i then 1 else 0
  have e : ∀ z : Fin n → ℝ, (∏ k, z k ^ (if k = i then 1 else 0)) = z i := by
    intro z
    simp [Finset.prod_ite_eq', pow_ite]
  simp only [e] at h
  refine ⟨h.1, ?_⟩
  rw [h.2]
  refine Finset.prod_eq_zero (Finset.mem_univ i) ?_
  simpa using std_moments.2.1

theorem std_second (i j : Fin n) : Integrable (fun z : Fin n → ℝ => z i * z j * stdNormal z) ∧
    ∫ z : Fin n → ℝ, z i * z j * stdNormal z = if i = j then 1 else 0 := by
  have h := std_product (n := n) fun k => (if k = i then 1 else 0) + if k = j then 1 else 0
  have e : ∀ z : Fin n → ℝ, (∏ k, z k ^ ((if k = i then 1 else 0) + if k = j then 1 else 0)) = z i * z j := by
    intro z
    simp only [pow_add, Finset.prod_mul_distrib]
    simp [pow_ite]
  simp only [e] at h
  refine ⟨h.1, ?_⟩
  rw [h.2]
  split
  · rename_i hij
    subst hij
    refine Finset.prod_eq_one fun k _ => ?_
    by_cases hk : k = i
    · simpa [hk] using std_moments.2.2
    · simpa [hk] using std_moments.1
  · rename_i hij
    refine Finset.prod_eq_zero (Finset.mem_univ i) ?_
    simpa [hij] using std_moments.2.1

/-! ## Change of variables -/

variable {S : Matrix (Fin n) (Fin n) ℝ} {loc : Fin n → ℝ}

theorem exp_mvnLP (hlow : S.IsLowerTriangular) (hd : ∀ i, 0 < S i i) (z : Fin n → ℝ) :
    Real.exp (mvnLP loc S (loc + S *ᵥ z)) = |S.det|⁻¹ * stdNormal z := by
  have hdet : S.det = ∏ i, S i i := det_of_isLowerTriangular _ hlow
  have hpos : 0 < S.det := hdet ▸ Finset.prod_pos fun i _ => hd i
  have hz : S⁻¹ *ᵥ (S *ᵥ z) = z := by
    rw [mulVec_mulVec, nonsing_inv_mul _ (isUnit_iff_ne_zero.2 hpos.ne'), one_mulVec]
  rw [mvnLP, add_sub_cancel_left, hz, abs_of_pos hpos, stdNormal, ← Real.exp_sum,
    ← Real.log_prod fun i _ => (hd i).ne', ← hdet]
  rw [← Real.exp_log (inv_pos.2 hpos), ← Real.exp_add, Real.log_inv]
  congr 1
  simp only [normalLP, sub_zero, one_pow, mul_one, Real.log_one, Finset.sum_sub_distrib, Finset.sum_neg_distrib,
    ← Finset.sum_div, Finset.sum_const, Finset.card_univ, Fintype.card_fin, dotProduct, nsmul_eq_mul, mul_zero]
  have : ∑ i, z i * z i = ∑ i, z i ^ 2 := Finset.sum_congr rfl fun i _ => by ring
  rw [this]
  ring

theorem mvn_integral (hlow : S.IsLowerTriangular) (hd : ∀ i, 0 < S i i) (g : (Fin n → ℝ) → ℝ) :
    ∫ x, g x * Real.exp (mvnLP loc S x) = ∫ z, g (loc + S *ᵥ z) * stdNormal z := by
  have hdet : S.det = ∏ i, S i i := det_of_isLowerTriangular _ hlow
  have hpos : 0 < S.det := hdet ▸ Finset.prod_pos fun i _ => hd i
  have e1 : ∫ x, g x * Real.exp (mvnLP loc S x) = ∫ w, g (loc + w) * Real.exp (mvnLP loc S (loc + w)) :=
    (integral_add_left_eq_self (fun x => g x * Real.exp (mvnLP loc S x)) loc).symm
  have hm := Real.map_matrix_volume_pi_eq_smul_volume_pi (M := S) hpos.ne'
  have hemb : MeasurableEmbedding (toLin' S) :=
    ((S.toLinearEquiv' (S.invertibleOfIsUnitDet (isUnit_iff_ne_zero.2 hpos.ne'))).toContinuousLinearEquiv.toHomeomorph).measurableEmbedding
  have e2 := hemb.integral_map (μ := volume) fun w => g (loc + w) * Real.exp (mvnLP loc S (loc + w))
  rw [hm, integral_smul_measure] at e2
  rw [e1]
  have e3 : ∫ z, g (loc + toLin' S z) * Real.exp (mvnLP loc S (loc + toLin' S z))
      = |S.det|⁻¹ * ∫ z, g (loc + S *ᵥ z) * stdNormal z := by
    rw [← integral_const_mul]
    refine integral_congr_ae (Filter.Eventually.of_forall fun z => ?_)
    simp only [toLin'_apply, exp_mvnLP hlow hd]
    ring
  rw [e3, ENNReal.toReal_ofReal (abs_nonneg _), abs_inv, smul_eq_mul] at e2
  have : |S.det|⁻¹ ≠ 0 := inv_ne_zero (abs_ne_zero.2 hpos.ne')
  exact mul_left_cancel₀ this e2

theorem mvn_moments (loc : Fin n → ℝ) (hlow : S.IsLowerTriangular) (hd : ∀ i, 0 < S i i) :
    ∫ x, Real.exp (mvnLP loc S x) = 1 ∧ (∀ i, ∫ x, x i * Real.exp (mvnLP loc S x) = loc i) ∧
      ∀ i j, ∫ x, (x i - loc i) * (x j - loc j) * Real.exp (mvnLP loc S x) = (S * S.transpose) i j := by
  refine ⟨?_, ?_, ?_⟩
  · have h := mvn_integral (loc := loc) hlow hd fun _ => 1
    simp only [one_mul] at h
    rw [h, std_mass.2]
  · intro i
    rw [mvn_integral hlow hd fun x => x i]
    have e : ∀ z : Fin n → ℝ, (loc + S *ᵥ z) i * stdNormal z = loc i * stdNormal z + ∑ k, S i k * (z k * stdNormal z) := by
      intro z
      simp only [Pi.add_apply, mulVec, dotProduct, add_mul, Finset.sum_mul, mul_assoc]
    simp only [e]
    rw [integral_add (std_mass.1.const_mul _) (integrable_finset_sum _ fun k _ => (std_first k).1.const_mul _),
      integral_const_mul, std_mass.2, integral_finset_sum _ fun k _ => (std_first k).1.const_mul _]
    simp only [integral_const_mul, (std_first _).2, mul_zero, Finset.sum_const_zero, mul_one, add_zero]
  · intro i j
    rw [mvn_integral hlow hd fun x => (x i - loc i) * (x j - loc j)]
    have e : ∀ z : Fin n → ℝ, ((loc + S *ᵥ z) i - loc i) * ((loc + S *ᵥ z) j - loc j) * stdNormal z
        = ∑ k, ∑ l, S i k * S j l * (z k * z l * stdNormal z) := by
      intro z
      simp only [Pi.add_apply, add_sub_cancel_left, mulVec, dotProduct]
      rw [Finset.sum_mul_sum, Finset.sum_mul]
      refine Finset.sum_congr rfl fun k _ => ?_
      rw [Finset.sum_mul]
      refine Finset.sum_congr rfl fun l _ => ?_
      ring
    simp only [e]
    rw [integral_finset_sum _ fun k _ => integrable_finset_sum _ fun l _ => (std_second k l).1.const_mul _]
    rw [Matrix.mul_apply]
    refine Finset.sum_congr rfl fun k _ => ?_
    rw [integral_finset_sum _ fun l _ => (std_second k l).1.const_mul _]
    simp only [integral_const_mul, (std_second _ _).2, mul_ite, mul_one, mul_zero, Finset.sum_ite_eq,
      Finset.mem_univ, if_true, transpose_apply]

end PV
