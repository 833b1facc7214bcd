import Verif.Lemmas.GammaBounds
import Verif.Props.Counts
import Verif.Props.PriorScale

/-!
# C130: forecasters of positive targets have a best fit

The Gamma likelihood, for targets above the threshold of 1e-5 below which the mean is bent.
-/

set_option linter.unusedSectionVars false

namespace PV
open Tensor Filter MeasureTheory

section
variable {ι α : Type} [Fintype ι]

/-- Squared distances of the data from the means as the Gamma likelihood sees them. -/
noncomputable def bentSquares (g f : α → ℝ) (l : List α) : ℝ :=
  (l.map fun a => (g a - toPositive (f a) 1e-5) ^ 2).sum

theorem bentSquares_nonneg (g f : α → ℝ) (l : List α) : 0 ≤ bentSquares g f l := by
  refine List.sum_nonneg fun z hz => ?_
  obtain ⟨a, -, rfl⟩ := List.mem_map.1 hz
  exact sq_nonneg _

theorem gamma_lik_le (scale : ℝ) {g : α → ℝ} : ∀ l : List α, (∀ a ∈ l, 0 < g a) →
    ∃ c K C : ℝ, 0 < c ∧ 0 ≤ K ∧ ∀ (σ : ℝ) (f : α → ℝ), 0 < σ →
      (l.map fun a => obsLog .gamma σ scale (f a) (g a)).sum ≤ C + K / σ - c * bentSquares g f l / σ ^ 2
  | [], _ => ⟨1, 0, 0, one_pos, le_rfl, fun σ f _ => by simp [bentSquares]⟩
  | a :: l, h => by
    obtain ⟨c, K, C, hc, hK, hl⟩ := gamma_lik_le scale l fun b hb => h b (List.mem_cons_of_mem _ hb)
    obtain ⟨c', K', C', hc', hK', ha⟩ := gammaLP_le_square (μ₀ := 1e-10) (by norm_num) (h a List.mem_cons_self)
    refine ⟨min c c', K + K', C + C', lt_min hc hc', add_nonneg hK hK', fun σ f hσ => ?_⟩
    have h1 := hl σ f hσ
    have h2 : obsLog .gamma σ scale (f a) (g a) ≤ _ := ha (toPositive (f a) 1e-5) σ (C44_positive _).2 hσ
    have e : bentSquares g f (a :: l) = (g a - toPositive (f a) 1e-5) ^ 2 + bentSquares g f l := by
      simp [bentSquares]
    rw [List.map_cons, List.sum_cons, e]
    have h0 := bentSquares_nonneg g f l
    have h3 : min c c' * ((g a - toPositive (f a) 1e-5) ^ 2 + bentSquares g f l) / σ ^ 2
        ≤ c' * (g a - toPositive (f a) 1e-5) ^ 2 / σ ^ 2 + c * bentSquares g f l / σ ^ 2 := by
      rw [← add_div]
      apply div_le_div_of_nonneg_right _ (by positivity)
      rw [mul_add]
      exact add_le_add (mul_le_mul_of_nonneg_right (min_le_right _ _) (sq_nonneg _))
        (mul_le_mul_of_nonneg_right (min_le_left _ _) h0)
    have h4 : (K + K') / σ = K / σ + K' / σ := add_div _ _ _
    rw [h4]
    linarith

theorem toPositive_gap {m y : ℝ} (hy : 1e-5 < y) (hm : ¬ 1e-5 ≤ m) :
    (y - 1e-5) ^ 2 ≤ (y - toPositive m 1e-5) ^ 2 := by
  have h1 : toPositive m 1e-5 ≤ toPositive 1e-5 1e-5 := C44_monotone (not_le.1 hm).le
  rw [C44_identity le_rfl] at h1
  exact pow_le_pow_left₀ (by linarith) (by linarith) 2

theorem above_gap {g : α → ℝ} : ∀ l : List α, (∀ a ∈ l, 1e-5 < g a) →
    ∃ ε, 0 < ε ∧ ∀ a ∈ l, ε ≤ (g a - 1e-5) ^ 2
  | [], _ => ⟨1, one_pos, fun a ha => by cases ha⟩
  | a :: l, h => by
    obtain ⟨ε, hε, hl⟩ := above_gap l fun b hb => h b (List.mem_cons_of_mem _ hb)
    have h1 : 0 < (g a - 1e-5) ^ 2 := pow_pos (by linarith [h a List.mem_cons_self]) 2
    refine ⟨min ε ((g a - 1e-5) ^ 2), lt_min hε h1, fun b hb => ?_⟩
    rcases List.mem_cons.1 hb with rfl | hb
    · exact min_le_right _ _
    · exact (min_le_left _ _).trans (hl b hb)

/-- Errors that cannot be avoided remain if the means are bent to be positive. -/
theorem bentSquares_gap {β : Type} {g : α → ℝ} {l : List α} (h : ∀ a ∈ l, 1e-5 < g a) {M : α → β → ℝ} {δ : ℝ}
    (hδ : 0 < δ) (hgap : ∀ v, δ ≤ (l.map fun a => (g a - M a v) ^ 2).sum) :
    ∃ ε, 0 < ε ∧ ∀ v, ε ≤ bentSquares g (fun a => M a v) l := by
  obtain ⟨ε, hε, hl⟩ := above_gap l h
  refine ⟨min δ ε, lt_min hδ hε, fun v => ?_⟩
  by_cases hall : ∀ a ∈ l, 1e-5 ≤ M a v
  · refine (min_le_left _ _).trans ((hgap v).trans (le_of_eq ?_))
    unfold bentSquares
    congr 1
    refine List.map_congr_left fun a ha => ?_
    rw [C44_identity (hall a ha)]
  · push Not at hall
    obtain ⟨a, ha, hm⟩ := hall
    refine (min_le_right _ _).trans ((hl a ha).trans ((toPositive_gap (h a ha) (not_le.2 hm)).trans ?_))
    unfold bentSquares
    refine List.single_le_sum (fun z hz => ?_) _ (List.mem_map.2 ⟨a, ha, rfl⟩)
    obtain ⟨b, -, rfl⟩ := List.mem_map.1 hz
    exact sq_nonneg _

theorem continuousOn_gamma_lik {X : Type} [TopologicalSpace X] {S : Set X} {σ : X → ℝ} {M : α → X → ℝ}
    {g : α → ℝ} {scale : ℝ} (hσ : ContinuousOn σ S) (hσ0 : ∀ z ∈ S, 0 < σ z) (hM : ∀ a, Continuous (M a)) :
    ∀ l : List α, ContinuousOn (fun z => (l.map fun a => obsLog .gamma (σ z) scale (M a z) (g a)).sum) S
  | [] => by
    simp only [List.map_nil, List.sum_nil]
    exact continuousOn_const
  | a :: l => by
    simp only [List.map_cons, List.sum_cons]
    refine ContinuousOn.add ?_ (continuousOn_gamma_lik hσ hσ0 hM l)
    exact continuousOn_gammaLP (g a) (C44_continuous.comp (hM a)).continuousOn hσ
      (fun z _ => (C44_positive _).1) hσ0

theorem tendsto_deviation {ns K d : ℝ} (hns : ns ≠ 0) (hK : 0 ≤ K) (hd : 0 < d) :
    Tendsto (fun u => halfNormalLP ns (Real.exp u) + (K / Real.exp u - d / Real.exp u ^ 2)) (cocompact ℝ) atBot := by
  have e : ∀ u : ℝ, K / Real.exp u - d / Real.exp u ^ 2 = Real.exp (-u) * (K - d * Real.exp (-u)) := by
    intro u
    rw [Real.exp_neg]
    field_simp
  simp only [e]
  rw [cocompact_eq_atBot_atTop, tendsto_sup]
  constructor
  · have h1 : Tendsto (fun u : ℝ => Real.exp (-u)) atBot atTop := Real.tendsto_exp_atTop.comp tendsto_neg_atBot_atTop
    have h2 : Tendsto (fun u : ℝ => K - d * Real.exp (-u)) atBot atBot :=
      tendsto_atBot_add_const_left _ K (tendsto_neg_atTop_atBot.comp (h1.const_mul_atTop hd))
    refine tendsto_atBot_mono (fun u => add_le_add (halfNormalLP_le ns _) le_rfl) ?_
    exact tendsto_atBot_add_const_left _ _ (h1.atTop_mul_atBot₀ h2)
  · have h1 : Tendsto (fun z => halfNormalLP ns z) (cocompact ℝ) atBot :=
      tendsto_atBot_add_const_left _ _ (tendsto_normalLP 0 hns)
    have h2 : Tendsto (fun u => halfNormalLP ns (Real.exp u)) atTop atBot :=
      h1.comp (Real.tendsto_exp_atTop.mono_right atTop_le_cocompact)
    refine tendsto_atBot_mono' _ ?_ (tendsto_atBot_add_const_right _ K h2)
    filter_upwards [eventually_ge_atTop (0 : ℝ)] with u hu
    have h3 : Real.exp (-u) ≤ 1 := Real.exp_le_one_iff.2 (by linarith)
    have h4 := Real.exp_pos (-u)
    have h5 : 0 ≤ d * (Real.exp (-u) * Real.exp (-u)) := by positivity
    have h6 : K * Real.exp (-u) ≤ K * 1 := mul_le_mul_of_nonneg_left h3 hK
    nlinarith

/-- A best fit over all noise levels. -/
theorem gamma_best {f : ι → ℝ → ℝ} {M : α → (ι → ℝ) → ℝ} {g : α → ℝ} {l : List α} {ns scale : ℝ}
    {Q : ℝ → (ι → ℝ) → PyM ℝ} (hQ : ∀ σ v, Q σ v = .ok (∑ i, f i (v i)
      + (halfNormalLP ns σ + (l.map fun a => obsLog .gamma σ scale (M a v) (g a)).sum)))
    (hf : ∀ i, Continuous (f i)) (ht : ∀ i, Tendsto (f i) (cocompact ℝ) atBot) (hM : ∀ a, Continuous (M a))
    (hns : ns ≠ 0) (hg : ∀ a ∈ l, 1e-5 < g a) {δ : ℝ} (hδ : 0 < δ)
    (hgap : ∀ v, δ ≤ (l.map fun a => (g a - M a v) ^ 2).sum) :
    ∃ σ v L, 0 < σ ∧ Q σ v = .ok L ∧ ∀ σ' v' L', 0 < σ' → Q σ' v' = .ok L' → L' ≤ L := by
  obtain ⟨ε, hε, hbent⟩ := bentSquares_gap hg hδ hgap
  obtain ⟨c, K, C, hc, hK, hlik⟩ := gamma_lik_le scale l fun a ha => lt_trans (by norm_num) (hg a ha)
  let F : Unit ⊕ ι → ℝ → ℝ
    | .inl _ => fun u => halfNormalLP ns (Real.exp u) + (K / Real.exp u - c * ε / Real.exp u ^ 2)
    | .inr i => f i
  let R : (Unit ⊕ ι → ℝ) → ℝ := fun w =>
    (l.map fun a => obsLog .gamma (Real.exp (w (.inl ()))) scale (M a fun i => w (.inr i)) (g a)).sum
      - (K / Real.exp (w (.inl ())) - c * ε / Real.exp (w (.inl ())) ^ 2)
  have hfac : Continuous fun u : ℝ => K / Real.exp u - c * ε / Real.exp u ^ 2 :=
    (continuous_const.div Real.continuous_exp fun u => (Real.exp_pos u).ne').sub
      (continuous_const.div (Real.continuous_exp.pow 2) fun u => (pow_pos (Real.exp_pos u) 2).ne')
  have hform : ∀ w : Unit ⊕ ι → ℝ, Q (Real.exp (w (.inl ()))) (fun i => w (.inr i)) = .ok (∑ i, F i (w i) + R w) := by
    intro w
    have h0 : ∑ u : Unit, F (.inl u) (w (.inl u)) = F (.inl ()) (w (.inl ())) := by simp
    rw [hQ, Fintype.sum_sum_type, h0]
    congr 1
    change _ = halfNormalLP ns (Real.exp (w (.inl ()))) + _ + (∑ i, f i (w (.inr i))) + (_ - _)
    ring
  obtain ⟨w, hw⟩ := exists_best (f := F) (R := R) (C := C)
    (by
      rintro (_ | i)
      · exact (continuous_const.add ((continuous_normalLP _ _).comp Real.continuous_exp)).add hfac
      · exact hf i)
    (by
      rintro (_ | i)
      · exact tendsto_deviation hns hK (mul_pos hc hε)
      · exact ht i)
    (by
      have h1 := continuousOn_gamma_lik (S := Set.univ) (σ := fun w : Unit ⊕ ι → ℝ => Real.exp (w (.inl ())))
        (M := fun a w => M a fun i => w (.inr i)) (g := g) (scale := scale)
        (Real.continuous_exp.comp (continuous_apply _)).continuousOn (fun z _ => Real.exp_pos _)
        (fun a => (hM a).comp (continuous_pi fun i => continuous_apply _)) l
      exact (continuousOn_univ.1 h1).sub (hfac.comp (continuous_apply _)))
    (by
      intro w
      have h1 := hlik (Real.exp (w (.inl ()))) (fun a => M a fun i => w (.inr i)) (Real.exp_pos _)
      have h2 : c * ε / Real.exp (w (.inl ())) ^ 2
          ≤ c * bentSquares g (fun a => M a fun i => w (.inr i)) l / Real.exp (w (.inl ())) ^ 2 :=
        div_le_div_of_nonneg_right (mul_le_mul_of_nonneg_left (hbent _) hc.le) (by positivity)
      simp only [R]
      linarith)
  refine ⟨Real.exp (w (.inl ())), fun i => w (.inr i), _, Real.exp_pos _, hform w, fun σ' v' L' hσ' hL' => ?_⟩
  have h1 := hw (Sum.elim (fun _ => Real.log σ') v')
  have h2 := hform (Sum.elim (fun _ => Real.log σ') v')
  simp only [Sum.elim_inl, Sum.elim_inr, Real.exp_log hσ'] at h2
  rw [hL'] at h2
  cases h2
  exact h1

/-- A best fit at a given noise level. -/
theorem gamma_best_at {f : ι → ℝ → ℝ} {M : α → (ι → ℝ) → ℝ} {g : α → ℝ} {l : List α} {ns scale σ : ℝ}
    {Q : (ι → ℝ) → PyM ℝ} (hQ : ∀ v, Q v = .ok (∑ i, f i (v i)
      + (halfNormalLP ns σ + (l.map fun a => obsLog .gamma σ scale (M a v) (g a)).sum)))
    (hf : ∀ i, Continuous (f i)) (ht : ∀ i, Tendsto (f i) (cocompact ℝ) atBot) (hM : ∀ a, Continuous (M a))
    (hσ : 0 < σ) (hg : ∀ a ∈ l, 0 < g a) : ∃ v L, Q v = .ok L ∧ ∀ v' L', Q v' = .ok L' → L' ≤ L := by
  obtain ⟨c, K, C, hc, -, hlik⟩ := gamma_lik_le scale l hg
  obtain ⟨v, hv⟩ := exists_best (f := f)
    (R := fun v => halfNormalLP ns σ + (l.map fun a => obsLog .gamma σ scale (M a v) (g a)).sum)
    (C := halfNormalLP ns σ + (C + K / σ)) hf ht
    (by
      have h1 := continuousOn_gamma_lik (S := Set.univ) (σ := fun _ : ι → ℝ => σ) (M := M) (g := g)
        (scale := scale) continuousOn_const (fun _ _ => hσ) hM l
      exact continuous_const.add (continuousOn_univ.1 h1))
    (by
      intro v
      have h1 := hlik σ (fun a => M a v) hσ
      have h2 : 0 ≤ c * bentSquares g (fun a => M a v) l / σ ^ 2 := by
        have := bentSquares_nonneg g (fun a => M a v) l
        positivity
      linarith)
  refine ⟨v, _, hQ v, fun v' L' hL' => ?_⟩
  rw [hQ] at hL'
  cases hL'
  exact hv v'

theorem gamma_proper {f : ι → ℝ → ℝ} {M : α → (ι → ℝ) → ℝ} {g : α → ℝ} {l : List α} {ns scale : ℝ}
    {P : ℝ × (ι → ℝ) → ℝ} (hP : ∀ z, P z = ∑ i, f i (z.2 i)
      + (halfNormalLP ns z.1 + (l.map fun a => obsLog .gamma z.1 scale (M a z.2) (g a)).sum))
    (hf : ∀ i, Integrable fun z => Real.exp (f i z)) (hm : ∀ i, Measurable (f i)) (hM : ∀ a, Continuous (M a))
    (hns : ns ≠ 0) (hg : ∀ a ∈ l, 1e-5 < g a) {δ : ℝ} (hδ : 0 < δ)
    (hgap : ∀ v, δ ≤ (l.map fun a => (g a - M a v) ^ 2).sum) :
    Integrable (fun z => Real.exp (P z)) (paramVolume ι) ∧ 0 < ∫ z, Real.exp (P z) ∂(paramVolume ι) := by
  classical
  obtain ⟨ε, hε, hbent⟩ := bentSquares_gap hg hδ hgap
  obtain ⟨c, K, C, hc, hK, hlik⟩ := gamma_lik_le scale l fun a ha => lt_trans (by norm_num) (hg a ha)
  let S : Set (ℝ × (ι → ℝ)) := {z | 0 < z.1}
  have hS : MeasurableSet S := measurableSet_lt measurable_const measurable_fst
  let R : ℝ × (ι → ℝ) → ℝ := S.piecewise
    (fun z => (l.map fun a => obsLog .gamma z.1 scale (M a z.2) (g a)).sum) fun _ => 0
  have hR : Measurable R := ContinuousOn.measurable_piecewise
    (continuousOn_gamma_lik continuous_fst.continuousOn (fun z hz => hz)
      (fun a => (hM a).comp continuous_snd) l) continuousOn_const hS
  have hin : ∀ z, z ∈ S → R z = (l.map fun a => obsLog .gamma z.1 scale (M a z.2) (g a)).sum := fun z hz =>
    Set.piecewise_eq_of_mem _ _ _ hz
  have hint := proper_density (R := R) (C := C + K ^ 2 / (4 * (c * ε))) (ns := ns) hf hm hR hns (by
    intro σ v hσ
    rw [hin (σ, v) hσ]
    have h1 := hlik σ (fun a => M a v) hσ
    have h2 : c * ε / σ ^ 2 ≤ c * bentSquares g (fun a => M a v) l / σ ^ 2 :=
      div_le_div_of_nonneg_right (mul_le_mul_of_nonneg_left (hbent v) hc.le) (by positivity)
    have h3 : K / σ - c * ε / σ ^ 2 ≤ K ^ 2 / (4 * (c * ε)) := by
      have h4 : 0 ≤ (K - 2 * (c * ε) / σ) ^ 2 / (4 * (c * ε)) := by positivity
      have e : (K - 2 * (c * ε) / σ) ^ 2 / (4 * (c * ε)) = K ^ 2 / (4 * (c * ε)) - (K / σ - c * ε / σ ^ 2) := by
        field_simp
        ring
      linarith
    change (l.map fun a => obsLog .gamma σ scale (M a v) (g a)).sum ≤ _
    linarith)
  have hint' : Integrable (fun z => Real.exp (P z)) (paramVolume ι) := by
    refine hint.congr ?_
    have hpos : ∀ᵐ z ∂(paramVolume ι), 0 < z.1 := by
      have : ∀ᵐ σ ∂((volume : Measure ℝ).restrict (Set.Ioi 0)), (0 : ℝ) < σ :=
        ae_restrict_mem measurableSet_Ioi
      exact Measure.quasiMeasurePreserving_fst.ae this
    filter_upwards [hpos] with z hz
    rw [hP, hin z hz]
  have : NeZero (paramVolume ι) := ⟨paramVolume_ne_zero _⟩
  exact ⟨hint', integral_exp_pos hint'⟩

/-- Data that are met exactly. -/
theorem gamma_lik_ge {σ scale : ℝ} (hσ : 0 < σ) {f g : α → ℝ} : ∀ l : List α, (∀ a ∈ l, 1e-5 < g a) →
    (∀ a ∈ l, σ < g a) → (∀ a ∈ l, f a = g a) →
    l.length * (-Real.log σ - (Real.log (16 / 3) + 1)) ≤ (l.map fun a => obsLog .gamma σ scale (f a) (g a)).sum
  | [], _, _, _ => by simp
  | a :: l, h1, h2, h3 => by
    have h := gamma_lik_ge hσ (scale := scale) (f := f) l (fun b hb => h1 b (List.mem_cons_of_mem _ hb))
      (fun b hb => h2 b (List.mem_cons_of_mem _ hb)) fun b hb => h3 b (List.mem_cons_of_mem _ hb)
    have ha : -Real.log σ - (Real.log (16 / 3) + 1) ≤ obsLog .gamma σ scale (f a) (g a) := by
      rw [h3 a List.mem_cons_self]
      change _ ≤ gammaLP (toPositive (g a) 1e-5 ^ 2 / σ ^ 2) (toPositive (g a) 1e-5 / σ ^ 2) (g a)
      rw [C44_identity (h1 a List.mem_cons_self).le]
      exact gammaLP_mean_ge hσ (h2 a List.mem_cons_self)
    rw [List.map_cons, List.sum_cons, List.length_cons]
    push_cast
    linarith

end

section
variable {τ : Type} [LinearOrder τ] {position : τ → ℤ} {compile : String → PyM (String → Bool)}
  {order : List String → List String} {days : τ → ℝ} {p : PiecewiseParams ℝ τ}
  {kind : String → EffectKind} {cfg : UniConfig (UsualAttrs τ) (Scale ℝ) τ ℝ (AnyData ℝ) ℝ}
  {y x : Frame String τ ℝ} {c : String} {X : Option (Frame String τ ℝ)}
  {m : UniFit (UsualAttrs τ) (Scale ℝ) τ ℝ (AnyData ℝ) ℝ}

/-- **C130**: the likelihood of positive data is bounded at every noise level, so that shrinking the
prior scale of an effect or of the changepoints makes them vanish (`C101_effect_vanishes`,
`C101_changepoints_vanish`). -/
theorem C130_bounded {σ : ℝ} (hσ : 0 < σ) (scale : ℝ) {rows : List (Row String τ ℝ)}
    (h : ∀ row ∈ rows, 0 < row.val c) : BoundedLikelihood .gamma σ scale c rows := by
  intro row hrow
  obtain ⟨k, K, C, hk, -, hb⟩ := gammaLP_le_square (μ₀ := 1e-10) (by norm_num) (h row hrow)
  refine ⟨C + K / σ, fun mean => (hb (toPositive mean 1e-5) σ (C44_positive _).2 hσ).trans ?_⟩
  have : 0 ≤ k * (row.val c - toPositive mean 1e-5) ^ 2 / σ ^ 2 := by positivity
  linarith

/-- **C130**: for positive data and every noise level there is a best fit, whatever the modes of the
effects. -/
theorem C130_given (hU : Usual position compile order days suggestLinear p kind cfg)
    (hp : Starts p) (hT : Training cfg y c X x) (hfit : uniFitData cfg y X = .ok m) {b : ℝ}
    (hb : p.priorScale = .scalar b) (hb0 : 0 < b)
    (hw : ∀ n ss mode s, kind n = .seasonal ss mode s → waves ss ≠ [])
    (hpc : ∀ n, Continuous (kind n).prior) (hpt : ∀ n, Tendsto (kind n).prior (cocompact ℝ) atBot)
    (hy : ∀ row ∈ y.rows, 0 < row.val c) :
    ∃ s cs, m.trend.st.2 = .piecewise (some s) ∧ s.cps = [cs] ∧
    ∀ ns scale os σ : ℝ, os ≠ 0 → 0 < σ → ∃ θ L, BestIn kind .gamma cs ns scale os (· = σ) m θ L := by
  obtain ⟨s, cs, hs, hcs, hC⟩ := usual_coords_any hU hT hfit hb hw
  obtain ⟨hoff, hrates⟩ := usual_offset hU hp hT hfit hs
  refine ⟨s, cs, hs, hcs, ?_⟩
  intro ns scale os σ hos hσ
  obtain ⟨μ, -, hsz, hval, hall⟩ := hC hoff hrates
  obtain ⟨v, L, hL, hbest⟩ := gamma_best_at (fun v => hval .gamma ns scale os σ v)
    (continuous_coordPrior hpc) (tendsto_coordPrior hos hb0 hpt) (fun row => continuous_coordMean _) hσ hy
  refine ⟨sitesOf FittedEffect.name σ v, L, hsz _ _, rfl, hL, fun θ₂ L₂ hz hσ₂ hL₂ => ?_⟩
  obtain ⟨σ', hσ'⟩ := List.length_eq_one_iff.1 hz.noise
  have hσ0 : siteScalar θ₂ "noise_scale" = σ' := by
    unfold siteScalar
    rw [hσ']
    rfl
  rw [hσ0] at hσ₂
  subst hσ₂
  rw [hall .gamma ns scale os _ θ₂ hz hσ'] at hL₂
  exact hbest _ L₂ hL₂

theorem C130_gap (hU : Usual position compile order days suggestLinear p kind cfg)
    (hfit : uniFitData cfg y X = .ok m)
    (hadd : ∀ fe ∈ usedEffects kind m, (kind fe.name).modeOf = "additive") {s : PiecewiseState ℝ τ} {cs : List ℝ}
    (hsz : ∀ (v : Coords (usedSize kind) cs (usedEffects kind m) → ℝ) (σ : ℝ),
      UsualSizes kind cs (usedEffects kind m) (sitesOf FittedEffect.name σ v))
    (hno : ¬ ∃ θ, UsualSizes kind cs (usedEffects kind m) θ ∧ FitsExactly position kind days s cs y c x m θ) :
    ∃ δ, 0 < δ ∧ ∀ v : Coords (usedSize kind) cs (usedEffects kind m) → ℝ, δ ≤ (y.rows.map fun row =>
      (row.val c - coordMean position (firstPosition position y.times) kind days x s cs v row.time) ^ 2).sum := by
  have hn' : ((usedEffects kind m).map FittedEffect.name).Nodup :=
    (usual_names hU hfit).1.sublist (List.filter_sublist.map _)
  refine unavoidable hadd fun v => ?_
  by_contra hcon
  push Not at hcon
  exact hno ⟨_, hsz v 1, fun row hrow => (usualMean_sitesOf hn' 1 v _).trans (hcon row hrow)⟩

/-- **C130**: if data above 1e-5 cannot be fitted exactly, there is a best fit over all noise
levels. -/
theorem C130_exists (hU : Usual position compile order days suggestLinear p kind cfg)
    (hp : Starts p) (hT : Training cfg y c X x) (hfit : uniFitData cfg y X = .ok m) {b : ℝ}
    (hb : p.priorScale = .scalar b) (hb0 : 0 < b)
    (hw : ∀ n ss mode s, kind n = .seasonal ss mode s → waves ss ≠ [])
    (hpc : ∀ n, Continuous (kind n).prior) (hpt : ∀ n, Tendsto (kind n).prior (cocompact ℝ) atBot)
    (hadd : ∀ fe ∈ usedEffects kind m, (kind fe.name).modeOf = "additive")
    (hy : ∀ row ∈ y.rows, 1e-5 < row.val c) :
    ∃ s cs, m.trend.st.2 = .piecewise (some s) ∧ s.cps = [cs] ∧
    ∀ ns scale os : ℝ, ns ≠ 0 → os ≠ 0 →
    (¬ ∃ θ, UsualSizes kind cs (usedEffects kind m) θ ∧ FitsExactly position kind days s cs y c x m θ) →
    ∃ θ, BestOfAll kind .gamma cs ns scale os m θ := by
  obtain ⟨s, cs, hs, hcs, hC⟩ := usual_coords_any hU hT hfit hb hw
  obtain ⟨hoff, hrates⟩ := usual_offset hU hp hT hfit hs
  refine ⟨s, cs, hs, hcs, ?_⟩
  intro ns scale os hns hos hno
  obtain ⟨μ, -, hsz, hval, hall⟩ := hC hoff hrates
  obtain ⟨δ, hδ, hgap⟩ := C130_gap (position := position) (days := days) (x := x) (y := y) (c := c) (s := s)
    hU hfit hadd hsz hno
  obtain ⟨σ, v, L, hσ, hL, hbest⟩ := gamma_best (fun σ v => hval .gamma ns scale os σ v)
    (continuous_coordPrior hpc) (tendsto_coordPrior hos hb0 hpt) (fun row => continuous_coordMean _)
    hns hy hδ hgap
  refine ⟨sitesOf FittedEffect.name σ v, hsz _ _, hσ, L, hL, fun θ₂ L₂ hz hσ₂ hL₂ => ?_⟩
  obtain ⟨σ', hσ'⟩ := List.length_eq_one_iff.1 hz.noise
  have hσ0 : siteScalar θ₂ "noise_scale" = σ' := by
    unfold siteScalar
    rw [hσ']
    rfl
  rw [hσ0] at hσ₂
  rw [hall .gamma ns scale os σ' θ₂ hz hσ'] at hL₂
  exact hbest σ' _ L₂ hσ₂ hL₂

/-- **C130**: the posterior of data above 1e-5 that cannot be fitted exactly is a probability
distribution. -/
theorem C130_proper (hU : Usual position compile order days suggestLinear p kind cfg)
    (hp : Starts p) (hT : Training cfg y c X x) (hfit : uniFitData cfg y X = .ok m) {b : ℝ}
    (hb : p.priorScale = .scalar b) (hb0 : 0 < b)
    (hw : ∀ n ss mode s, kind n = .seasonal ss mode s → waves ss ≠ [])
    (hpm : ∀ n, Measurable (kind n).prior) (hpi : ∀ n, Integrable fun z => Real.exp ((kind n).prior z))
    (hadd : ∀ fe ∈ usedEffects kind m, (kind fe.name).modeOf = "additive")
    (hy : ∀ row ∈ y.rows, 1e-5 < row.val c) :
    ∃ s cs, m.trend.st.2 = .piecewise (some s) ∧ s.cps = [cs] ∧
    ∀ ns scale os : ℝ, ns ≠ 0 → os ≠ 0 →
    (¬ ∃ θ, UsualSizes kind cs (usedEffects kind m) θ ∧ FitsExactly position kind days s cs y c x m θ) →
    ProperPosterior kind .gamma cs ns scale os m := by
  obtain ⟨s, cs, hs, hcs, hC⟩ := usual_coords_any hU hT hfit hb hw
  obtain ⟨hoff, hrates⟩ := usual_offset hU hp hT hfit hs
  refine ⟨s, cs, hs, hcs, ?_⟩
  intro ns scale os hns hos hno
  obtain ⟨μ, -, hsz, hval, hall⟩ := hC hoff hrates
  obtain ⟨δ, hδ, hgap⟩ := C130_gap (position := position) (days := days) (x := x) (y := y) (c := c) (s := s)
    hU hfit hadd hsz hno
  exact ⟨_, fun σ v => hval .gamma ns scale os σ v, gamma_proper (fun _ => rfl)
    (integrable_coordPrior hos hb0 hpi) (measurable_coordPrior hpm) (fun row => continuous_coordMean _)
    hns hy hδ hgap⟩

/-- **C130**: if some parameters fit data above 1e-5 exactly, the log posterior of these parameters
grows beyond all bounds as the noise level shrinks. -/
theorem C130_unbounded (hU : Usual position compile order days suggestLinear p kind cfg)
    (hp : Starts p) (hT : Training cfg y c X x) (hfit : uniFitData cfg y X = .ok m) {b : ℝ}
    (hb : p.priorScale = .scalar b)
    (hw : ∀ n ss mode s, kind n = .seasonal ss mode s → waves ss ≠ [])
    (hy : ∀ row ∈ y.rows, 1e-5 < row.val c) :
    ∃ s cs, m.trend.st.2 = .piecewise (some s) ∧ s.cps = [cs] ∧
    ∀ (ns scale os : ℝ) (θ : SiteEnv ℝ), UsualSizes kind cs (usedEffects kind m) θ →
    FitsExactly position kind days s cs y c x m θ →
    ∀ B : ℝ, ∃ ε, 0 < ε ∧ ∀ σ, 0 < σ → σ ≤ ε → ∃ L,
      usualDensity kind .gamma ns scale os m (withNoise θ σ) = .ok L ∧ B ≤ L := by
  obtain ⟨s, cs, hs, hcs, hC⟩ := usual_coords_any hU hT hfit hb hw
  obtain ⟨hoff, hrates⟩ := usual_offset hU hp hT hfit hs
  refine ⟨s, cs, hs, hcs, ?_⟩
  intro ns scale os θ hz hexact B
  obtain ⟨μ, -, hsz, hval, hall⟩ := hC hoff hrates
  have hN : 0 < (y.rows.length : ℝ) := by
    have := List.length_pos_of_ne_nil hT.some
    exact_mod_cast this
  have hcoords : ∀ σ, (coordsOf FittedEffect.name (withNoise θ σ) :
      Coords (usedSize kind) cs (usedEffects kind m) → ℝ) = coordsOf FittedEffect.name θ := by
    intro σ
    funext i
    rcases i with _ | _ | ⟨k, j⟩
    · rfl
    · rfl
    · simp only [coordsOf, withNoise]
      rw [if_neg (coefs_site_ne _ (by decide))]
  have hform := fun σ => (hall .gamma ns scale os σ _ (withNoise_sizes hz σ) rfl).trans
    (hval .gamma ns scale os σ (coordsOf FittedEffect.name (withNoise θ σ)))
  simp only [hcoords] at hform
  have hexact' : ∀ row ∈ y.rows, coordMean position (firstPosition position y.times) kind days x s cs
      (coordsOf FittedEffect.name θ : Coords (usedSize kind) cs (usedEffects kind m) → ℝ) row.time = row.val c :=
    fun row hrow => (usualMean_coordsOf hz row.time).symm.trans (hexact row hrow)
  generalize ∑ i, coordPrior kind μ os b cs (usedEffects kind m) i (coordsOf FittedEffect.name θ i) = P at hform
  let Q : ℝ := P + (Real.log 2 - 1 / (2 * ns ^ 2) - Real.log ns - Real.log (2 * Real.pi) / 2)
    - y.rows.length * (Real.log (16 / 3) + 1)
  refine ⟨min 1e-5 (Real.exp ((Q - B) / y.rows.length)), lt_min (by norm_num) (Real.exp_pos _),
    fun σ h0 h1 => ⟨_, hform σ, ?_⟩⟩
  have h2 : σ ≤ 1e-5 := h1.trans (min_le_left _ _)
  have h3 : Real.log σ ≤ (Q - B) / y.rows.length :=
    (Real.log_le_iff_le_exp h0).2 (h1.trans (min_le_right _ _))
  rw [le_div_iff₀ hN] at h3
  have h4 : Real.log 2 - 1 / (2 * ns ^ 2) - Real.log ns - Real.log (2 * Real.pi) / 2 ≤ halfNormalLP ns σ := by
    unfold halfNormalLP normalLP
    have : (σ - 0) ^ 2 / (2 * ns ^ 2) ≤ 1 / (2 * ns ^ 2) := by
      apply div_le_div_of_nonneg_right _ (by positivity)
      norm_num at h2
      nlinarith
    linarith
  have h5 := gamma_lik_ge (scale := scale) h0 (g := fun row : Row String τ ℝ => row.val c) y.rows hy
    (fun row hrow => h2.trans_lt (hy row hrow)) hexact'
  simp only [Q] at h3
  linarith

/-- **C130**: maximum a posteriori inference of data above 1e-5 has an answer exactly if no
parameters fit the training data exactly. -/
theorem C130_iff (hU : Usual position compile order days suggestLinear p kind cfg)
    (hp : Starts p) (hT : Training cfg y c X x) (hfit : uniFitData cfg y X = .ok m) {b : ℝ}
    (hb : p.priorScale = .scalar b) (hb0 : 0 < b)
    (hw : ∀ n ss mode s, kind n = .seasonal ss mode s → waves ss ≠ [])
    (hpc : ∀ n, Continuous (kind n).prior) (hpt : ∀ n, Tendsto (kind n).prior (cocompact ℝ) atBot)
    (hadd : ∀ fe ∈ usedEffects kind m, (kind fe.name).modeOf = "additive")
    (hy : ∀ row ∈ y.rows, 1e-5 < row.val c) :
    ∃ s cs, m.trend.st.2 = .piecewise (some s) ∧ s.cps = [cs] ∧
    ∀ ns scale os : ℝ, ns ≠ 0 → os ≠ 0 → ((∃ θ, BestOfAll kind .gamma cs ns scale os m θ) ↔
      ¬ ∃ θ, UsualSizes kind cs (usedEffects kind m) θ ∧ FitsExactly position kind days s cs y c x m θ) := by
  obtain ⟨s, cs, hs, hcs, h1⟩ := C130_exists hU hp hT hfit hb hb0 hw hpc hpt hadd hy
  obtain ⟨s', cs', hs', hcs', h2⟩ := C130_unbounded hU hp hT hfit hb hw hy
  rw [hs] at hs'
  cases hs'
  rw [hcs] at hcs'
  cases hcs'
  refine ⟨s, cs, hs, hcs, fun ns scale os hns hos => ⟨?_, h1 ns scale os hns hos⟩⟩
  rintro ⟨θ, -, -, L, -, hmax⟩ ⟨θ', hz, hexact⟩
  obtain ⟨ε, hε, h⟩ := h2 ns scale os θ' hz hexact (L + 1)
  obtain ⟨L', hL', hle⟩ := h ε hε le_rfl
  have := hmax _ L' (withNoise_sizes hz ε) hε hL'
  linarith

/-- **C130**: a constant target above 1e-5: maximum a posteriori inference has no answer. -/
theorem C130_constant (hU : Usual position compile order days suggestLinear p kind cfg)
    (hp : Starts p) (hT : Training cfg y c X x) (hfit : uniFitData cfg y X = .ok m) {b : ℝ}
    (hb : p.priorScale = .scalar b)
    (hw : ∀ n ss mode s, kind n = .seasonal ss mode s → waves ss ≠ []) {k : ℝ} (hk0 : 1e-5 < k)
    (hk : ∀ row ∈ y.rows, row.val c = k) :
    ∃ s cs, m.trend.st.2 = .piecewise (some s) ∧ s.cps = [cs] ∧
    ∀ ns scale os : ℝ, ¬ ∃ θ, BestOfAll kind .gamma cs ns scale os m θ := by
  obtain ⟨s, cs, hs, hcs, hex, -⟩ := C99_constant hU hp hT hfit hb hw hk
  obtain ⟨s', cs', hs', hcs', h2⟩ := C130_unbounded hU hp hT hfit hb hw
    (fun row hrow => by rw [hk row hrow]; exact hk0)
  rw [hs] at hs'
  cases hs'
  rw [hcs] at hcs'
  cases hcs'
  refine ⟨s, cs, hs, hcs, fun ns scale os => ?_⟩
  rintro ⟨θ, -, -, L, -, hmax⟩
  obtain ⟨θ', hz, hexact⟩ := hex
  obtain ⟨ε, hε, h⟩ := h2 ns scale os θ' hz hexact (L + 1)
  obtain ⟨L', hL', hle⟩ := h ε hε le_rfl
  have := hmax _ L' (withNoise_sizes hz ε) hε hL'
  linarith

end

/-! ## Examples

The values 1, 3, 4 with a trend alone: there is a best fit and the posterior is proper.  A constant
target has no best fit.  With the multiplicative effects of `exCfg95` there is a best fit at every
noise level. -/

noncomputable section

example : ∃ m, uniFitData exCfg99 exY85 none = .ok m ∧
    ∃ s cs, m.trend.st.2 = .piecewise (some s) ∧ s.cps = [cs] ∧
    (∃ θ, BestOfAll exKind95 .gamma cs (1 / 2) 1 (1 / 10) m θ) ∧
    ProperPosterior exKind95 .gamma cs (1 / 2) 1 (1 / 10) m := by
  obtain ⟨m, hm⟩ := exFits99
  have hy : ∀ row ∈ exY85.rows, 1e-5 < row.val "y" := by
    simp only [exY85, List.mem_cons, List.not_mem_nil, or_false, forall_eq_or_imp, forall_eq]
    norm_num
  have hadd : ∀ fe ∈ usedEffects exKind95 m, (exKind95 fe.name).modeOf = "additive" := by
    rw [exUsed99 exTraining99' hm]
    intro fe hfe
    cases hfe
  obtain ⟨s, cs, hs, hcs, h⟩ := C130_exists exUsual99 (.inl rfl) exTraining99' hm (b := 2) rfl (by norm_num)
    exWaves98 exContinuous98 exTendsto98 hadd hy
  obtain ⟨s', cs', hs', hcs', h'⟩ := C130_proper exUsual99 (.inl rfl) exTraining99' hm (b := 2) rfl (by norm_num)
    exWaves98 (fun n => (exContinuous98 n).measurable) exIntegrable100 hadd hy
  rw [hs] at hs'
  cases hs'
  rw [hcs] at hcs'
  cases hcs'
  exact ⟨m, hm, s, cs, hs, hcs, h _ _ _ (by norm_num) (by norm_num) (exNoFit99 hm hs hcs),
    h' _ _ _ (by norm_num) (by norm_num) (exNoFit99 hm hs hcs)⟩

example : ∃ m, uniFitData exCfg95 exY99 (some exX97) = .ok m ∧
    ∃ s cs, m.trend.st.2 = .piecewise (some s) ∧ s.cps = [cs] ∧
    (¬ ∃ θ, BestOfAll exKind95 .gamma cs (1 / 2) 1 (1 / 10) m θ) ∧
    ∃ θ L, BestIn exKind95 .gamma cs (1 / 2) 1 (1 / 10) (· = 3) m θ L := by
  obtain ⟨m, hm⟩ := C98_fits exUsual95 exValid98 (fun _ _ h => Int.cast_lt.2 h) exTraining99
    (by simp [exY99]) (by rintro _ ⟨⟩ a ha; exact ha)
  obtain ⟨s, cs, hs, hcs, h⟩ := C130_constant exUsual95 (.inl rfl) exTraining99 hm (b := 2) rfl exWaves98 (k := 2)
    (by norm_num) (by simp [exY99])
  obtain ⟨s', cs', hs', hcs', h'⟩ := C130_given exUsual95 (.inl rfl) exTraining99 hm (b := 2) rfl (by norm_num)
    exWaves98 exContinuous98 exTendsto98 (by simp [exY99])
  rw [hs] at hs'
  cases hs'
  rw [hcs] at hcs'
  cases hcs'
  exact ⟨m, hm, s, cs, hs, hcs, h _ _ _, h' _ _ _ _ (by norm_num) (by norm_num)⟩

end
end PV
