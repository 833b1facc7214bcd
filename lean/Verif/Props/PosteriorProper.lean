import Mathlib.MeasureTheory.Integral.Pi
import Mathlib.MeasureTheory.Measure.Lebesgue.Basic
import Mathlib.Analysis.SpecialFunctions.Gaussian.GaussianIntegral
import Mathlib.Analysis.SpecialFunctions.ImproperIntegrals
import Mathlib.Analysis.SpecialFunctions.NonIntegrable
import Verif.Props.BestNoise

/-!
# C100: the posterior that is sampled is a probability distribution
-/

set_option linter.unusedSectionVars false

namespace PV
open Tensor MeasureTheory

/-! ## Integrals -/

/-- Lebesgue measure over a positive noise level and the other parameters. -/
noncomputable def paramVolume (ι : Type) [Fintype ι] : Measure (ℝ × (ι → ℝ)) :=
  (volume.restrict (Set.Ioi 0)).prod volume

theorem integrable_normalLP (μ : ℝ) {os : ℝ} (hos : os ≠ 0) :
    Integrable fun z => Real.exp (normalLP μ os z) := by
  have h := ((integrable_exp_neg_mul_sq (b := 1 / (2 * os ^ 2)) (by positivity)).comp_sub_right μ).const_mul
    (Real.exp (-Real.log os - Real.log (2 * Real.pi) / 2))
  refine h.congr (Filter.Eventually.of_forall fun z => ?_)
  simp only [← Real.exp_add, normalLP]
  congr 1
  ring

theorem integrable_laplaceLP (μ : ℝ) {b : ℝ} (hb : 0 < b) :
    Integrable fun z => Real.exp (laplaceLP μ b z) := by
  have h0 : Integrable fun z : ℝ => Real.exp (-(|z| / b)) := by
    rw [← integrableOn_univ, ← Set.Iic_union_Ioi (a := (0 : ℝ))]
    refine IntegrableOn.union ?_ ?_
    · refine (integrableOn_exp_mul_Iic (a := 1 / b) (by positivity) 0).congr_fun (fun z hz => ?_) measurableSet_Iic
      simp only [abs_of_nonpos (Set.mem_Iic.1 hz)]
      congr 1
      ring
    · refine (integrableOn_exp_mul_Ioi (a := -(1 / b)) (by simpa using hb) 0).congr_fun (fun z hz => ?_)
        measurableSet_Ioi
      simp only [abs_of_pos (Set.mem_Ioi.1 hz)]
      congr 1
      ring
  have h := (h0.comp_sub_right μ).const_mul (Real.exp (-Real.log (2 * b)))
  refine h.congr (Filter.Eventually.of_forall fun z => ?_)
  simp only [← Real.exp_add, laplaceLP]
  congr 1
  ring

/-- `-E/2σ² - n log σ` is bounded for `E ≥ δ > 0`. -/
theorem noise_bounded {n δ : ℝ} (hn : 0 < n) (hδ : 0 < δ) : ∃ C, ∀ E σ : ℝ, δ ≤ E → 0 < σ →
    -(E / (2 * σ ^ 2)) - n * Real.log σ ≤ C := by
  refine ⟨n / 2 * Real.log (n / δ), fun E σ hE hσ => ?_⟩
  have h1 := Real.log_le_sub_one_of_pos (x := δ / (n * σ ^ 2)) (by positivity)
  have h2 : Real.log (δ / (n * σ ^ 2)) = -Real.log (n / δ) - 2 * Real.log σ := by
    rw [Real.log_div hδ.ne' (by positivity), Real.log_mul hn.ne' (by positivity), Real.log_pow,
      Real.log_div hn.ne' hδ.ne']
    push_cast
    ring
  have h3 : δ / (2 * σ ^ 2) ≤ E / (2 * σ ^ 2) := by gcongr
  have h4 : n / 2 * (δ / (n * σ ^ 2)) = δ / (2 * σ ^ 2) := by
    field_simp
  have h5 := mul_le_mul_of_nonneg_left h1 (by positivity : 0 ≤ n / 2)
  rw [h2, mul_sub (n / 2) (δ / _), h4] at h5
  nlinarith

/-- Proper priors and a bounded likelihood give a proper posterior. -/
theorem proper_density {ι : Type} [Fintype ι] {f : ι → ℝ → ℝ} (hf : ∀ i, Integrable fun z => Real.exp (f i z))
    (hm : ∀ i, Measurable (f i)) {R : ℝ × (ι → ℝ) → ℝ} (hR : Measurable R) {C ns : ℝ} (hns : ns ≠ 0)
    (hb : ∀ σ v, 0 < σ → R (σ, v) ≤ C) :
    Integrable (fun z : ℝ × (ι → ℝ) => Real.exp (∑ i, f i (z.2 i) + (halfNormalLP ns z.1 + R z)))
      (paramVolume ι) := by
  have h1 : Integrable (fun σ => Real.exp (halfNormalLP ns σ)) (volume.restrict (Set.Ioi 0)) := by
    refine Integrable.restrict ?_
    refine ((integrable_normalLP 0 hns).const_mul (Real.exp (Real.log 2))).congr
      (Filter.Eventually.of_forall fun z => ?_)
    simp only [halfNormalLP, Real.exp_add]
  have h2 : Integrable (fun v : ι → ℝ => ∏ i, Real.exp (f i (v i))) volume := Integrable.fintype_prod hf
  have h3 := (h1.mul_prod h2).const_mul (Real.exp C)
  have hh : Measurable fun σ => halfNormalLP ns σ := by
    unfold halfNormalLP normalLP
    fun_prop
  refine Integrable.mono' h3 ?_ ?_
  · refine (Measurable.exp ?_).aestronglyMeasurable
    refine Measurable.add (Finset.measurable_sum _ fun i _ => ?_) (Measurable.add ?_ hR)
    · exact (hm i).comp ((measurable_pi_apply i).comp measurable_snd)
    · exact hh.comp measurable_fst
  · have hpos : ∀ᵐ z ∂(paramVolume ι), 0 < z.1 := by
      have : ∀ᵐ σ ∂((volume : Measure ℝ).restrict (Set.Ioi 0)), (0 : ℝ) < σ :=
        ae_restrict_mem measurableSet_Ioi
      exact Measure.quasiMeasurePreserving_fst.ae this
    filter_upwards [hpos] with z hz
    rw [Real.norm_of_nonneg (Real.exp_nonneg _), ← Real.exp_sum, ← Real.exp_add, ← Real.exp_add, Real.exp_le_exp]
    have := hb z.1 z.2 hz
    linarith

theorem paramVolume_ne_zero (ι : Type) [Fintype ι] : paramVolume ι ≠ 0 := by
  intro h
  have h1 := congrArg (fun μ => μ (Set.univ ×ˢ Set.univ)) h
  simp only [paramVolume, Measure.prod_prod, Measure.coe_zero, Pi.zero_apply, mul_eq_zero] at h1
  rcases h1 with h1 | h1
  · simp at h1
  · exact isOpen_univ.measure_ne_zero _ ⟨0, trivial⟩ h1

/-- A density at least as large as `σ⁻ⁿ` on the boxes of radius `σ` around a point of a space of less
than `n` dimensions has an infinite integral. -/
theorem improper_density {ι : Type} [Fintype ι] {P : ℝ × (ι → ℝ) → ℝ} (hP : Measurable P) {n : Nat}
    (hn : Fintype.card ι < n) {v₀ : ι → ℝ} {c : ℝ}
    (hlow : ∀ σ v, 0 < σ → σ < 1 → (∀ i, |v i - v₀ i| ≤ σ) → c - n * Real.log σ ≤ P (σ, v)) :
    ¬ Integrable (fun z => Real.exp (P z)) (paramVolume ι) := by
  intro h
  have hl := h.lintegral_lt_top
  unfold paramVolume at hl
  rw [lintegral_prod _ hP.exp.ennreal_ofReal.aemeasurable] at hl
  have hinner : ∀ σ ∈ Set.Ioo (0 : ℝ) 1, ENNReal.ofReal (Real.exp c * σ⁻¹)
      ≤ ∫⁻ v : ι → ℝ, ENNReal.ofReal (Real.exp (P (σ, v))) := by
    intro σ hσ
    have h1 : ∫⁻ v in Set.Icc (fun i => v₀ i - σ) (fun i => v₀ i + σ),
        ENNReal.ofReal (Real.exp (c - n * Real.log σ))
        ≤ ∫⁻ v : ι → ℝ, ENNReal.ofReal (Real.exp (P (σ, v))) := by
      refine le_trans (setLIntegral_mono' measurableSet_Icc fun v hv => ?_) (setLIntegral_le_lintegral _ _)
      refine ENNReal.ofReal_le_ofReal (Real.exp_le_exp.2 (hlow σ v hσ.1 hσ.2 fun i => ?_))
      rw [abs_le]
      have a := hv.1 i
      have b := hv.2 i
      simp only at a b
      constructor <;> linarith
    refine le_trans ?_ h1
    rw [setLIntegral_const, Real.volume_Icc_pi]
    simp only [add_sub_sub_cancel, Finset.prod_const, Finset.card_univ]
    rw [← ENNReal.ofReal_pow (by linarith [hσ.1]), ← ENNReal.ofReal_mul (Real.exp_nonneg _)]
    refine ENNReal.ofReal_le_ofReal ?_
    rw [sub_eq_add_neg, Real.exp_add, mul_assoc]
    refine mul_le_mul_of_nonneg_left ?_ (Real.exp_nonneg _)
    have h2 : Real.exp (-(n * Real.log σ)) = (σ ^ n)⁻¹ := by
      rw [Real.exp_neg, Real.exp_nat_mul, Real.exp_log hσ.1]
    have h3 : σ ^ n ≤ σ ^ (Fintype.card ι + 1) := pow_le_pow_of_le_one hσ.1.le hσ.2.le hn
    have h4 : σ ^ Fintype.card ι ≤ (σ + σ) ^ Fintype.card ι := pow_le_pow_left₀ hσ.1.le (by linarith [hσ.1]) _
    have h5 : 0 < σ ^ n := pow_pos hσ.1 _
    have h6 : 0 < σ ^ Fintype.card ι := pow_pos hσ.1 _
    rw [h2, inv_mul_eq_div, le_div_iff₀ h5, inv_mul_le_iff₀ hσ.1]
    calc σ ^ n ≤ σ ^ (Fintype.card ι + 1) := h3
      _ = σ * σ ^ Fintype.card ι := pow_succ' _ _
      _ ≤ _ := mul_le_mul_of_nonneg_left h4 hσ.1.le
  have hfin : ∫⁻ σ in Set.Ioo (0 : ℝ) 1, ENNReal.ofReal (Real.exp c * σ⁻¹) < ⊤ := by
    refine lt_of_le_of_lt ?_ hl
    refine le_trans (setLIntegral_mono' measurableSet_Ioo hinner) ?_
    exact lintegral_mono_set fun σ hσ => hσ.1
  have hint : IntegrableOn (fun σ : ℝ => Real.exp c * σ⁻¹) (Set.Ioo 0 1) := by
    refine ⟨(measurable_const.mul measurable_inv).aestronglyMeasurable, ?_⟩
    rw [hasFiniteIntegral_iff_ofReal]
    · exact hfin
    · refine (ae_restrict_mem measurableSet_Ioo).mono fun σ hσ => ?_
      have := hσ.1
      positivity
  have hint' : IntegrableOn (fun σ : ℝ => σ⁻¹) (Set.Ioo 0 1) := by
    have := hint.const_mul (Real.exp c)⁻¹
    refine this.congr (Filter.Eventually.of_forall fun σ => ?_)
    have := Real.exp_ne_zero c
    field_simp
  have hiv : IntervalIntegrable (fun σ : ℝ => σ⁻¹) volume 0 1 := by
    rw [intervalIntegrable_iff_integrableOn_Ioo_of_le zero_le_one]
    exact hint'
  rw [intervalIntegrable_inv_iff] at hiv
  rcases hiv with h | h
  · exact zero_ne_one h
  · exact h (by simp)

theorem measurable_lik {ι : Type} [Fintype ι] {α : Type} {f : α → (ι → ℝ) → ℝ} {g : α → ℝ}
    (hf : ∀ a, Measurable (f a)) : ∀ l : List α,
    Measurable fun z : ℝ × (ι → ℝ) => (l.map fun a => normalLP (f a z.2) z.1 (g a)).sum
  | [] => by simp
  | a :: l => by
    simp only [List.map_cons, List.sum_cons]
    refine Measurable.add ?_ (measurable_lik hf l)
    have : Measurable fun z : ℝ × (ι → ℝ) => f a z.2 := (hf a).comp measurable_snd
    unfold normalLP
    exact ((((measurable_const.sub this).pow_const 2).div (by fun_prop)).neg.sub (by fun_prop)).sub (by fun_prop)

theorem proper_of {ι : Type} [Fintype ι] {α : Type} {f : ι → ℝ → ℝ} {M : α → (ι → ℝ) → ℝ} {g : α → ℝ}
    {l : List α} {ns : ℝ} {P : ℝ × (ι → ℝ) → ℝ}
    (hP : ∀ z, P z = ∑ i, f i (z.2 i) + (halfNormalLP ns z.1 + (l.map fun a => normalLP (M a z.2) z.1 (g a)).sum))
    (hf : ∀ i, Integrable fun z => Real.exp (f i z)) (hm : ∀ i, Measurable (f i))
    (hM : ∀ a, Measurable (M a)) (hns : ns ≠ 0) (hl : 0 < (l.length : ℝ)) {δ : ℝ} (hδ : 0 < δ)
    (hgap : ∀ v, δ ≤ (l.map fun a => (g a - M a v) ^ 2).sum) :
    Integrable (fun z => Real.exp (P z)) (paramVolume ι) ∧ 0 < ∫ z, Real.exp (P z) ∂(paramVolume ι) := by
  obtain ⟨C, hCb⟩ := noise_bounded hl hδ
  have hint := proper_density (R := fun z => (l.map fun a => normalLP (M a z.2) z.1 (g a)).sum)
    (C := C - l.length * (Real.log (2 * Real.pi) / 2)) (ns := ns) hf hm (measurable_lik hM _) hns
    (by
      intro σ v hσ
      have := hCb _ σ (hgap v) hσ
      simp only [lik_squares]
      linarith)
  simp only [← hP] at hint
  have : NeZero (paramVolume ι) := ⟨paramVolume_ne_zero _⟩
  exact ⟨hint, integral_exp_pos hint⟩

theorem continuous_low {f : ℝ → ℝ} (hf : Continuous f) (z : ℝ) : ∃ L, ∀ u, |u - z| ≤ 1 → L ≤ f u := by
  obtain ⟨u₀, -, h⟩ := (isCompact_Icc (a := z - 1) (b := z + 1)).exists_isMinOn
    ⟨z, by constructor <;> linarith⟩ hf.continuousOn
  refine ⟨f u₀, fun u hu => h ?_⟩
  rw [abs_le] at hu
  constructor <;> linarith [hu.1, hu.2]

theorem improper_of {ι : Type} [Fintype ι] {α : Type} {f : ι → ℝ → ℝ} {M : α → (ι → ℝ) → ℝ} {g : α → ℝ}
    {l : List α} {ns : ℝ} {P : ℝ × (ι → ℝ) → ℝ}
    (hP : ∀ z, P z = ∑ i, f i (z.2 i) + (halfNormalLP ns z.1 + (l.map fun a => normalLP (M a z.2) z.1 (g a)).sum))
    (hf : ∀ i, Continuous (f i)) (hM : ∀ a, Measurable (M a)) (hcard : Fintype.card ι < l.length)
    {v₀ : ι → ℝ} {K : ℝ} (hK : ∀ σ v, 0 < σ → (∀ i, |v i - v₀ i| ≤ σ) → ∀ a ∈ l, |g a - M a v| ≤ K * σ) :
    ¬ Integrable (fun z => Real.exp (P z)) (paramVolume ι) := by
  choose L hL using fun i => continuous_low (hf i) (v₀ i)
  refine improper_density (P := P) (n := l.length) (v₀ := v₀)
    (c := ∑ i, L i + (Real.log 2 + (-(1 / (2 * ns ^ 2)) - Real.log ns - Real.log (2 * Real.pi) / 2)
      - l.length * K ^ 2 / 2 - l.length * (Real.log (2 * Real.pi) / 2))) ?_ hcard ?_
  · rw [funext hP]
    refine Measurable.add (Finset.measurable_sum _ fun i _ => ?_) (Measurable.add ?_ ?_)
    · exact (hf i).measurable.comp ((measurable_pi_apply i).comp measurable_snd)
    · unfold halfNormalLP normalLP
      fun_prop
    · exact measurable_lik hM _
  · intro σ v hσ hσ1 hv
    have h1 : ∑ i, L i ≤ ∑ i, f i (v i) := Finset.sum_le_sum fun i _ => hL i _ ((hv i).trans hσ1.le)
    have h2 : -(1 / (2 * ns ^ 2)) ≤ -((σ - 0) ^ 2 / (2 * ns ^ 2)) := by
      have : (σ - 0) ^ 2 ≤ 1 := by nlinarith
      gcongr
    have h3 : (l.map fun a => (g a - M a v) ^ 2).sum ≤ l.length * (K * σ) ^ 2 := by
      have := List.sum_le_sum (l := l) (f := fun a => (g a - M a v) ^ 2) (g := fun _ => (K * σ) ^ 2)
        fun a ha => sq_le_sq' (abs_le.1 (hK σ v hσ hv a ha)).1 (abs_le.1 (hK σ v hσ hv a ha)).2
      simpa using this
    have h4 : (l.map fun a => (g a - M a v) ^ 2).sum / (2 * σ ^ 2) ≤ l.length * K ^ 2 / 2 := by
      rw [div_le_iff₀ (by positivity)]
      refine h3.trans (le_of_eq ?_)
      ring
    rw [hP]
    simp only [lik_squares, halfNormalLP]
    generalize (l.map fun a => (g a - M a v) ^ 2).sum / (2 * σ ^ 2) = T at h4 ⊢
    unfold normalLP
    linarith

theorem improper_of' {ι : Type} [Fintype ι] {α : Type} {f : ι → ℝ → ℝ} {M : α → (ι → ℝ) → ℝ} {g : α → ℝ}
    {l : List α} {ns : ℝ} {Q : ℝ → (ι → ℝ) → PyM ℝ}
    (hQ : ∀ σ v, Q σ v
      = .ok (∑ i, f i (v i) + (halfNormalLP ns σ + (l.map fun a => normalLP (M a v) σ (g a)).sum)))
    (hf : ∀ i, Continuous (f i)) (hM : ∀ a, Measurable (M a)) (hcard : Fintype.card ι < l.length)
    {v₀ : ι → ℝ} {K : ℝ} (hK : ∀ σ v, 0 < σ → (∀ i, |v i - v₀ i| ≤ σ) → ∀ a ∈ l, |g a - M a v| ≤ K * σ) :
    ¬ ∃ P : ℝ × (ι → ℝ) → ℝ, (∀ σ v, Q σ v = .ok (P (σ, v))) ∧
      Integrable (fun z => Real.exp (P z)) (paramVolume ι) ∧ 0 < ∫ z, Real.exp (P z) ∂(paramVolume ι) := by
  rintro ⟨P, hP, hint, -⟩
  refine improper_of (ns := ns) (fun z => ?_) hf hM hcard hK hint
  have h := hQ z.1 z.2
  rw [hP] at h
  injection h

theorem squares_fin' {α : Type} (f : α → ℕ) (l : List α) : (l.map f).sum = ∑ i : Fin l.length, f l[i] := by
  rw [← Fin.sum_univ_fun_getElem]
  rfl

/-! ## Specification -/

variable {τ : Type} [LinearOrder τ] {position : τ → ℤ} {compile : String → PyM (String → Bool)}
  {order : List String → List String} {days : τ → ℝ} {p : PiecewiseParams ℝ τ}
  {kind : String → EffectKind} {cfg : UniConfig (UsualAttrs τ) (Scale ℝ) τ ℝ (AnyData ℝ) ℝ}
  {y x : Frame String τ ℝ} {c : String} {X : Option (Frame String τ ℝ)}
  {m : UniFit (UsualAttrs τ) (Scale ℝ) τ ℝ (AnyData ℝ) ℝ}

/-- The density of the model is that of a probability distribution up to a constant factor: it is
defined for all values of the parameters and has a finite positive integral over all of them and all
positive noise levels. -/
def ProperPosterior (kind : String → EffectKind) (lik : Likelihood) (cs : List ℝ) (ns scale os : ℝ)
    (m : UniFit (UsualAttrs τ) (Scale ℝ) τ ℝ (AnyData ℝ) ℝ) : Prop :=
  ∃ P : ℝ × (Coords (usedSize kind) cs (usedEffects kind m) → ℝ) → ℝ,
    (∀ σ v, usualDensity kind lik ns scale os m (sitesOf FittedEffect.name σ v) = .ok (P (σ, v))) ∧
    Integrable (fun z => Real.exp (P z)) (paramVolume _) ∧ 0 < ∫ z, Real.exp (P z) ∂(paramVolume _)

theorem integrable_coordPrior {S Y Sc V D K : Type} {μ os b : ℝ} (hos : os ≠ 0) (hb0 : 0 < b) {cs : List ℝ}
    {l : List (FittedEffect S Y Sc τ V D K)} (hpi : ∀ n, Integrable fun z => Real.exp ((kind n).prior z)) :
    ∀ i, Integrable fun z => Real.exp (coordPrior kind μ os b cs l i z) := by
  rintro (_ | _ | ⟨k, _⟩)
  · exact integrable_normalLP _ hos
  · exact integrable_laplaceLP _ hb0
  · exact hpi _

theorem measurable_coordPrior {S Y Sc V D K : Type} {μ os b : ℝ} {cs : List ℝ}
    {l : List (FittedEffect S Y Sc τ V D K)} (hpm : ∀ n, Measurable (kind n).prior) :
    ∀ i, Measurable (coordPrior kind μ os b cs l i) := by
  rintro (_ | _ | ⟨k, _⟩)
  · exact (continuous_normalLP _ _).measurable
  · exact (continuous_laplaceLP _ _).measurable
  · exact hpm _

/-- The errors grow at most in proportion to the distance from parameters that fit exactly. -/
theorem design_lipschitz {s : PiecewiseState ℝ τ} {cs : List ℝ}
    (hadd : ∀ fe ∈ usedEffects kind m, (kind fe.name).modeOf = "additive")
    {v₀ : Coords (usedSize kind) cs (usedEffects kind m) → ℝ} (hv₀ : ∀ row ∈ y.rows,
      coordMean position (firstPosition position y.times) kind days x s cs v₀ row.time = row.val c) :
    ∃ K, ∀ (σ : ℝ) (v : Coords (usedSize kind) cs (usedEffects kind m) → ℝ), 0 < σ →
      (∀ i, |v i - v₀ i| ≤ σ) → ∀ row ∈ y.rows,
      |row.val c - coordMean position (firstPosition position y.times) kind days x s cs v row.time| ≤ K * σ := by
  let A := (designMap (position := position) (days := days) (x := x) (s := s)
    (cs := cs) (p0 := firstPosition position y.times) hadd y.times).toContinuousLinearMap
  refine ⟨‖A‖, fun σ v hσ hv row hrow => ?_⟩
  have h1 : ‖v - v₀‖ ≤ σ := (pi_norm_le_iff_of_nonneg hσ.le).2 fun i => hv i
  have h2 : ‖A (v - v₀)‖ ≤ ‖A‖ * σ := (A.le_opNorm _).trans (mul_le_mul_of_nonneg_left h1 (norm_nonneg _))
  obtain ⟨k, hk, rfl⟩ := List.mem_iff_getElem.1 hrow
  have hl : y.times.length = y.rows.length := by simp [Frame.times]
  have e : (y.times[k]'(by rw [hl]; exact hk)) = y.rows[k].time := by simp [Frame.times]
  have h3 := (norm_le_pi_norm (A (v - v₀)) ⟨k, by rw [hl]; exact hk⟩).trans h2
  rw [map_sub, Pi.sub_apply, Real.norm_eq_abs] at h3
  have h4 : ∀ w, A w ⟨k, by rw [hl]; exact hk⟩
      = coordMean position (firstPosition position y.times) kind days x s cs w y.rows[k].time := by
    intro w
    rw [← e]
    rfl
  rw [h4, h4, hv₀ _ hrow, abs_sub_comm] at h3
  exact h3

/-- **C100**: with proper priors and data that the additive model cannot fit without error, the
posterior is a probability distribution. -/
theorem C100_proper (hU : Usual position compile order days suggestLinear p kind cfg)
    (hp : Starts p) (hT : Training cfg y c X x) (hfit : uniFitData cfg y X = .ok m) {b : ℝ}
    (hb : p.priorScale = .scalar b) (hb0 : 0 < b)
    (hw : ∀ n ss mode s, kind n = .seasonal ss mode s → waves ss ≠ [])
    (hpm : ∀ n, Measurable (kind n).prior) (hpi : ∀ n, Integrable fun z => Real.exp ((kind n).prior z))
    (hadd : ∀ fe ∈ usedEffects kind m, (kind fe.name).modeOf = "additive") :
    ∃ s cs, m.trend.st.2 = .piecewise (some s) ∧ s.cps = [cs] ∧
    ∀ ns scale os : ℝ, ns ≠ 0 → os ≠ 0 →
    (¬ ∃ θ, UsualSizes kind cs (usedEffects kind m) θ ∧ FitsExactly position kind days s cs y c x m θ) →
    ProperPosterior kind .normal cs ns scale os m := by
  obtain ⟨s, cs, hs, hcs, hC⟩ := usual_coords hU hT hfit hb hw
  obtain ⟨hoff, hrates⟩ := usual_offset hU hp hT hfit hs
  refine ⟨s, cs, hs, hcs, ?_⟩
  intro ns scale os hns hos hno
  obtain ⟨μ, -, hsz, hval, hall⟩ := hC hoff hrates
  have hn' : ((usedEffects kind m).map FittedEffect.name).Nodup :=
    (usual_names hU hfit).1.sublist (List.filter_sublist.map _)
  obtain ⟨δ, hδ, hgap⟩ := unavoidable (position := position) (days := days) (x := x) (s := s) (cs := cs)
    (y := y) (c := c) hadd (by
      intro v
      by_contra hcon
      push Not at hcon
      exact hno ⟨_, hsz v 1, fun row hrow => (usualMean_sitesOf hn' 1 v _).trans (hcon row hrow)⟩)
  have hN : 0 < (y.rows.length : ℝ) := by
    have := List.length_pos_of_ne_nil hT.some
    exact_mod_cast this
  exact ⟨_, fun σ v => hval ns scale os σ v, proper_of (fun _ => rfl) (integrable_coordPrior hos hb0 hpi)
    (measurable_coordPrior hpm) (fun row => (continuous_coordMean _).measurable) hns hN hδ hgap⟩

theorem card_coords {α : Type} (size : α → ℕ) (cs : List ℝ) (l : List α) :
    Fintype.card (Coords size cs l) = 1 + (cs.length + (l.map size).sum) := by
  rw [Fintype.card_sum, Fintype.card_sum, Fintype.card_sigma, squares_fin']
  simp only [Fintype.card_unit, Fintype.card_fin]

/-- **C100**: if some parameters fit the training data exactly and there are more dates than
parameters, the density has no finite integral: there is no posterior distribution. -/
theorem C100_improper (hU : Usual position compile order days suggestLinear p kind cfg)
    (hp : Starts p) (hT : Training cfg y c X x) (hfit : uniFitData cfg y X = .ok m) {b : ℝ}
    (hb : p.priorScale = .scalar b)
    (hw : ∀ n ss mode s, kind n = .seasonal ss mode s → waves ss ≠ [])
    (hpc : ∀ n, Continuous (kind n).prior)
    (hadd : ∀ fe ∈ usedEffects kind m, (kind fe.name).modeOf = "additive") :
    ∃ s cs, m.trend.st.2 = .piecewise (some s) ∧ s.cps = [cs] ∧
    ∀ ns scale os : ℝ,
    1 + (cs.length + ((usedEffects kind m).map (usedSize kind)).sum) < y.rows.length →
    (∃ θ, UsualSizes kind cs (usedEffects kind m) θ ∧ FitsExactly position kind days s cs y c x m θ) →
    ¬ ProperPosterior kind .normal cs ns scale os m := by
  obtain ⟨s, cs, hs, hcs, hC⟩ := usual_coords hU hT hfit hb hw
  obtain ⟨hoff, hrates⟩ := usual_offset hU hp hT hfit hs
  refine ⟨s, cs, hs, hcs, ?_⟩
  rintro ns scale os hcard ⟨θ, hz, hexact⟩
  obtain ⟨μ, -, hsz, hval, hall⟩ := hC hoff hrates
  obtain ⟨K, hK⟩ := design_lipschitz (position := position) (days := days) (x := x) (s := s) (cs := cs)
    (y := y) (c := c) hadd (v₀ := coordsOf FittedEffect.name θ)
    fun row hrow => (usualMean_coordsOf hz _).symm.trans (hexact row hrow)
  exact improper_of' (fun σ v => hval ns scale os σ v) (continuous_coordPrior hpc)
    (fun row => (continuous_coordMean _).measurable) ((card_coords _ _ _).trans_lt hcard) hK

/-- **C100**: in particular a constant training target, with more dates than parameters, has no
posterior distribution. -/
theorem C100_constant (hU : Usual position compile order days suggestLinear p kind cfg)
    (hp : Starts p) (hT : Training cfg y c X x) (hfit : uniFitData cfg y X = .ok m) {b : ℝ}
    (hb : p.priorScale = .scalar b)
    (hw : ∀ n ss mode s, kind n = .seasonal ss mode s → waves ss ≠ [])
    (hpc : ∀ n, Continuous (kind n).prior)
    (hadd : ∀ fe ∈ usedEffects kind m, (kind fe.name).modeOf = "additive") {k : ℝ}
    (hk : ∀ row ∈ y.rows, row.val c = k) :
    ∃ s cs, m.trend.st.2 = .piecewise (some s) ∧ s.cps = [cs] ∧
    ∀ ns scale os : ℝ,
    1 + (cs.length + ((usedEffects kind m).map (usedSize kind)).sum) < y.rows.length →
    ¬ ProperPosterior kind .normal cs ns scale os m := by
  obtain ⟨s, cs, hs, hcs, hex, -⟩ := C99_constant hU hp hT hfit hb hw hk
  obtain ⟨s', cs', hs', hcs', h⟩ := C100_improper hU hp hT hfit hb hw hpc hadd
  rw [hs] at hs'
  cases hs'
  rw [hcs] at hcs'
  cases hcs'
  exact ⟨s, cs, hs, hcs, fun ns scale os hcard => h ns scale os hcard hex⟩

/-! ## Examples -/

theorem exIntegrable100 (n : String) : Integrable fun z => Real.exp ((exKind95 n).prior z) := by
  unfold exKind95
  split
  · exact integrable_normalLP _ (by norm_num)
  · exact integrable_normalLP _ (by norm_num)

/-- A trend through 1, 3, 4 has a posterior. -/
example : ∃ m, uniFitData exCfg99 exY85 none = .ok m ∧
    ∃ s cs, m.trend.st.2 = .piecewise (some s) ∧ s.cps = [cs] ∧
    ProperPosterior exKind95 .normal cs (1 / 2) 1 (1 / 10) m := by
  obtain ⟨m, hm⟩ := exFits99
  obtain ⟨s, cs, hs, hcs, h⟩ := C100_proper exUsual99 (.inl rfl) exTraining99' hm (b := 2) rfl (by norm_num)
    exWaves98 (fun n => (exContinuous98 n).measurable) exIntegrable100
    (by rw [exUsed99 exTraining99' hm]; intro fe hfe; cases hfe)
  exact ⟨m, hm, s, cs, hs, hcs, h _ _ _ (by norm_num) (by norm_num) (exNoFit99 hm hs hcs)⟩

theorem exTraining100 : Training exCfg99 exY99 "y" none (Frame.ofIndex [0, 1, 2]) where
  flat := rfl
  column := rfl
  sorted := by simp [exY99]
  some := by simp [exY99]
  features := ⟨Frame.ofIndex [0, 1, 2], by simp [exCfg99, exCfg95, exY99, Frame.times], by
    unfold Frame.locTimes
    rw [if_pos (by simp [Frame.ofIndex, exY99, Frame.times])]
    simp [Frame.ofIndex, exY99, Frame.times]⟩
  dates := ⟨rfl, by simp [Frame.ofIndex], by simp [exY99, Frame.times],
    by simp [Frame.ofIndex, exY99, Frame.times], by simp [Frame.ofIndex]⟩

noncomputable def exS100 : PiecewiseState ℝ Int :=
  ⟨⟨1, 0, 1⟩, [[0]], [0], [2], [0], [2], none⟩

theorem exFit100 : piecewiseFit (fun n : Int => (n : ℝ)) suggestLinear exP85 exY99 = .ok exS100 := by
  have h1 : trendTimeFit (fun n : Int => (n : ℝ)) exY99 = .ok ⟨1, 0, 1⟩ := by
    simp [trendTimeFit, exY99, Frame.times, unique, diffs, nSeriesOf]
  have h2 : setupChangepoints ((unique exY99.times).map
      ((⟨1, 0, 1⟩ : TrendTime ℝ).scaled (fun n : Int => (n : ℝ)))) 1 exP85.interval exP85.range = .ok [[0]] := by
    simp [setupChangepoints, exP85, exY99, Frame.times, unique, ScalarOr.toList, changepointsAll, changepointsOf, changepointTimes, changepointLimit, TrendTime.scaled, arange]
    rfl
  have h3 : exY99.seriesToTensor = .ok ⟨[1, 3, 1], [2, 2, 2]⟩ := by
    rfl
  have h4 : suggestLinear ((unique exY99.times).map
      ((⟨1, 0, 1⟩ : TrendTime ℝ).scaled (fun n : Int => (n : ℝ)))) ⟨[1, 3, 1], [2, 2, 2]⟩ = .ok ([0], [2]) := by
    simp [suggestLinear, exY99, Frame.times, unique, TrendTime.scaled, column, get?, ravel, size]
  unfold piecewiseFit
  simp only [h1, bind, Except.bind, h2]
  simp only [detrended, exP85, h3]
  rw [h4]
  simp [exS100, priorVectors, ScalarOr.toList, exY99, pure, Except.pure]

/-- A trend through 2, 2, 2 has none. -/
example : ∃ m, uniFitData exCfg99 exY99 none = .ok m ∧
    ∃ s cs, m.trend.st.2 = .piecewise (some s) ∧ s.cps = [cs] ∧
    ¬ ProperPosterior exKind95 .normal cs (1 / 2) 1 (1 / 10) m := by
  obtain ⟨m, hm⟩ := C98_fits exUsual99 ⟨exValid98.interval, exValid98.range, .inl rfl, exValid98.seasons,
    by intro e he; cases he⟩ (fun _ _ h => Int.cast_lt.2 h) exTraining100 (by simp [exY99])
    (by rintro _ ⟨⟩)
  have hused := exUsed99 exTraining100 hm
  obtain ⟨s, cs, hs, hcs, h⟩ := C100_constant exUsual99 (.inl rfl) exTraining100 hm (b := 2) rfl
    exWaves98 exContinuous98 (by rw [hused]; intro fe hfe; cases hfe) (k := 2) (by simp [exY99])
  refine ⟨m, hm, s, cs, hs, hcs, h _ _ _ ?_⟩
  cases exState99 hm hs exFit100
  cases hcs
  rw [hused]
  simp [exY99]

end PV
