import Verif.Props.PanelBest
import Verif.Props.PosteriorProper

/-!
# C100 for panels: the posterior of the parameters of the mean is a probability distribution
-/

set_option linter.unusedSectionVars false

namespace PV
open Tensor MeasureTheory Matrix

section
variable {τ : Type} [LinearOrder τ]
variable {days : τ → ℝ} {p : PiecewiseParams ℝ τ}
  {cfg : HierConfig (Option (PiecewiseState ℝ τ)) (Scale ℝ) τ (Tensor ℝ) ℝ}
  {mode : String → String}

/-- Specification: given the noise levels and the correlation, the density of a panel is that of a
probability distribution up to a constant factor.  There are finitely many real coordinates for the
parameters of the mean; every parameters of the right sizes have coordinates; the density is defined
at all of them and has a finite positive integral. -/
def ProperPanel (lkj : Nat → ℝ → Tensor ℝ → ℝ) (ns conc os : ℝ) (prior : String → ℝ → ℝ)
    (s : PiecewiseState ℝ τ) (m : HierFit (Option (PiecewiseState ℝ τ)) (Scale ℝ) τ (Tensor ℝ) ℝ)
    (std corr : Tensor ℝ) : Prop :=
  ∃ (ι : Type) (_ : Fintype ι) (at_ : (ι → ℝ) → SiteEnv ℝ) (P : (ι → ℝ) → ℝ),
    (∀ v, HierSizes s m (at_ v) ∧ at_ v "std_observation" = std ∧ at_ v "corr_matrix" = corr) ∧
    (∀ θ, HierSizes s m θ → ∃ v, (at_ v "offset").data = (θ "offset").data ∧
      (at_ v "changepoint_coefficients").data = (θ "changepoint_coefficients").data ∧
      ∀ fe ∈ m.fitted, fe.cols ≠ [] →
        (at_ v (fe.name ++ "/coefs")).data = (θ (fe.name ++ "/coefs")).data) ∧
    (∀ v, hierDensity lkj ns conc os prior m (at_ v) = .ok (P v)) ∧
    Integrable (fun v => Real.exp (P v)) ∧ 0 < ∫ v, Real.exp (P v)

theorem envOf_covers {sites : List (String × List (ℝ → ℝ))} (hn : (sites.map Prod.fst).Nodup)
    (θ₀ θ : SiteEnv ℝ) (h : SitesSized sites θ) :
    ∃ v, ∀ e ∈ sites, (envOf sites θ₀ v e.1).data = (θ e.1).data := by
  refine ⟨fun i => (θ sites[i.1].1).data.getD i.2 0, fun e he => ?_⟩
  have hl := h e he
  obtain ⟨k, hk, rfl⟩ := List.getElem_of_mem he
  rw [show sites[k].1 = sites[(⟨k, hk⟩ : Fin sites.length)].1 from rfl, envOf_site hn]
  refine List.ext_getElem (by simpa using hl.symm) fun j h1 h2 => ?_
  rw [List.getElem_ofFn]
  show (θ sites[k].1).data.getD j 0 = _
  rw [List.getD_eq_getElem _ _ (by exact h2)]
  rfl

/-- Proper priors and a bounded likelihood give a proper posterior. -/
theorem proper_bounded {ι : Type} [Fintype ι] {f : ι → ℝ → ℝ} (hf : ∀ i, Integrable fun z => Real.exp (f i z))
    (hm : ∀ i, Measurable (f i)) {R : (ι → ℝ) → ℝ} (hR : Measurable R) {C : ℝ} (hb : ∀ v, R v ≤ C) :
    Integrable (fun v : ι → ℝ => Real.exp (∑ i, f i (v i) + R v)) := by
  have h2 : Integrable (fun v : ι → ℝ => ∏ i, Real.exp (f i (v i))) volume := Integrable.fintype_prod hf
  refine Integrable.mono' (h2.const_mul (Real.exp C)) ?_ (Filter.Eventually.of_forall fun v => ?_)
  · refine (Measurable.exp ?_).aestronglyMeasurable
    exact Measurable.add (Finset.measurable_sum _ fun i _ => (hm i).comp (measurable_pi_apply i)) hR
  · rw [Real.norm_of_nonneg (Real.exp_nonneg _), ← Real.exp_sum, ← Real.exp_add, Real.exp_le_exp]
    have := hb v
    linarith

/-- **C100** for panels: for given noise levels and correlation, and proper priors of the
coefficients, the posterior of the parameters of the mean is a probability distribution, whatever the
observations. -/
theorem C100_panel (hV : ValidHier days p cfg) (hM : Modes mode cfg) {y : Frame String τ ℝ}
    (hy : RegularPanel y) {ss : List (List String)} (hss : SeriesOf y ss) (h2 : 2 ≤ ss.length) {ts : List τ}
    (hts : DatesOf y ts) {b : ℝ} (hb : p.priorScale = .scalar b) (hb0 : 0 < b)
    {X : Option (Frame String τ ℝ)} (hX : GivenExog X ss ts)
    (hcomp : ∀ c ∈ givenCols X, c ∉ cfg.shared → ∃ q, cfg.compile c = .ok q) :
    ∃ m s, hierFitData cfg y X = .ok m ∧ m.trend.st.2 = some s ∧
      ∀ (lkj : Nat → ℝ → Tensor ℝ → ℝ) (ns conc os : ℝ) (prior : String → ℝ → ℝ), os ≠ 0 →
        (∀ n, Measurable (prior n)) → (∀ n, Integrable fun z => Real.exp (prior n z)) →
        ∀ (std corr : Tensor ℝ) (σ : Fin ss.length → ℝ) (C : Matrix (Fin ss.length) (Fin ss.length) ℝ),
        std.data.length = ss.length → VectorSite std σ → (∀ i, 0 < σ i) → MatrixSite corr C → CorrFactor C →
        ProperPanel lkj ns conc os prior s m std corr := by
  obtain ⟨c, hc⟩ := hy.column
  obtain ⟨obs, hobs⟩ : ∃ obs, Observed y c obs :=
    ⟨fun a t => cellAt y a t c, fun r hr _ => cellAt_of_mem hy.ordered hr (by rw [hc]; simp)⟩
  obtain ⟨m, hfit⟩ := C113_fits hV hy hss hts hX hcomp
  obtain ⟨x, s, h, ho, hlu, hF⟩ := C90_fitted hV hM hy hc hobs hss h2 hts (by rw [hb]; trivial) hX hcomp hfit
  refine ⟨m, s, hfit, h.state, ?_⟩
  intro lkj ns conc os prior hos hpm hpi std corr σ C hsl hσs hσ hCs hC
  set sites := hierSites os prior s (kept m.fitted) with hsites
  have hnd : (sites.map Prod.fst).Nodup := hierSites_nodup (h.nodup.sublist (List.filter_sublist.map _))
  have hmemf := hier_site_priors (os := os) (prior := prior) (l := kept m.fitted) hb hlu
  have hsized := hier_sized (os := os) (prior := prior) h ho hlu
  rw [← hsites] at hmemf hsized
  set θ₀ : SiteEnv ℝ := fun n => if n = "std_observation" then std else if n = "corr_matrix" then corr else ⟨[], []⟩
  have e1 : ∀ v, envOf sites θ₀ v "std_observation" = std := fun v => by
    rw [envOf_other θ₀ v (noise_not_site (by decide) (by decide) (by decide))]
    rfl
  have e2 : ∀ v, envOf sites θ₀ v "corr_matrix" = corr := fun v => by
    rw [envOf_other θ₀ v (noise_not_site (by decide) (by decide) (by decide))]
    rfl
  have hz : ∀ v, SitesSized sites (envOf sites θ₀ v) := envOf_sized hnd θ₀
  have hval := fun v => hF lkj ns conc os prior (envOf sites θ₀ v) σ C ((hsized _).1 (hz v))
    (by rw [e1]; exact hsl) (by rw [e1]; exact hσs) hσ (by rw [e2]; exact hCs) hC
  have hint : Integrable (fun v : SiteIndex sites → ℝ => Real.exp (∑ i : SiteIndex sites, sites[i.1].2[i.2] (v i)
      + (noisePart lkj ns conc ss.length θ₀
        + hierLik days mode s ss ts (kept m.fitted) x obs σ C (envOf sites θ₀ v)))) := by
    refine proper_bounded (fun i => ?_) (fun i => ?_) ?_
      (C := noisePart lkj ns conc ss.length θ₀
        + (ts.map fun _ => -Real.log (panelCovariance σ C).det / 2 - ss.length * Real.log (2 * Real.pi) / 2).sum)
      fun v => ?_
    · rcases hmemf _ (List.getElem_mem i.1.2) _ (List.getElem_mem i.2.2) with ⟨μ, e⟩ | ⟨μ, e⟩ | ⟨n, e⟩
      · exact e ▸ integrable_normalLP _ hos
      · exact e ▸ integrable_laplaceLP _ hb0
      · exact e ▸ hpi n
    · rcases hmemf _ (List.getElem_mem i.1.2) _ (List.getElem_mem i.2.2) with ⟨μ, e⟩ | ⟨μ, e⟩ | ⟨n, e⟩
      · exact e ▸ (continuous_normalLP _ _).measurable
      · exact e ▸ (continuous_laplaceLP _ _).measurable
      · exact e ▸ hpm n
    · refine (Continuous.measurable ?_).const_add _
      exact continuous_map_sum _ fun t _ => continuous_normalDensity (fun i =>
        continuous_panelMean (continuous_envOf hnd θ₀) (envOf_length hnd θ₀) _ _ _ _ _ _) _ _
    · have : hierLik days mode s ss ts (kept m.fitted) x obs σ C (envOf sites θ₀ v) ≤ _ :=
        List.sum_le_sum fun t _ => normalDensity_le hσ hC _ _
      linarith
  have hP : ∀ v, hierDensity lkj ns conc os prior m (envOf sites θ₀ v)
      = .ok (∑ i : SiteIndex sites, sites[i.1].2[i.2] (v i) + (noisePart lkj ns conc ss.length θ₀
        + hierLik days mode s ss ts (kept m.fitted) x obs σ C (envOf sites θ₀ v))) := by
    intro v
    rw [hval v, ← sitesPrior_envOf hnd θ₀ v, sitesPrior_hier (hz v)]
    have hnoise : noisePart lkj ns conc ss.length (envOf sites θ₀ v) = noisePart lkj ns conc ss.length θ₀ := by
      unfold noisePart
      rw [e1, e2]
      rfl
    rw [hnoise]
  refine ⟨SiteIndex sites, inferInstance, envOf sites θ₀, _, fun v => ⟨(hsized _).1 (hz v), e1 v, e2 v⟩,
    fun θ hθ => ?_, hP, hint, integral_exp_pos hint⟩
  obtain ⟨v, hv⟩ := envOf_covers hnd θ₀ θ ((hsized θ).2 hθ)
  refine ⟨v, hv ("offset", s.offsetLoc.map fun μ => normalLP μ os) (by rw [hsites]; simp only [hierSites]; simp),
    hv ("changepoint_coefficients", List.zipWith laplaceLP s.priorLoc s.priorScale)
      (by rw [hsites]; simp only [hierSites]; simp), fun fe hfe hne => ?_⟩
  exact hv (fe.name ++ "/coefs", List.replicate fe.cols.length (prior fe.name)) (by
    rw [hsites]
    simp only [hierSites, List.mem_cons, List.mem_map]
    exact .inr (.inr ⟨fe, (hier_kept h).2 ⟨hfe, hne⟩, rfl⟩))

/-- The panel of C113. -/
example : ∃ m s, hierFitData exCfg113 exY113 (some exX113) = .ok m ∧
    ProperPanel (fun _ _ _ => 0) 1 1 (1 / 10) (fun _ => normalLP 0 1) s m ⟨[2], [1, 2]⟩
      (exθ90 "corr_matrix") := by
  obtain ⟨m, s, h1, -, h⟩ := C100_panel (mode := fun n => if n = "e" then "multiplicative" else "additive")
    exValid113 ⟨by
      intro e he
      cases List.mem_singleton.1 he
      rfl, rfl⟩ exPanel113 exSeries113 (by simp) exDates113 (b := 1 / 10) rfl (by norm_num)
    (exExog113 (ts := [0, 1]) (by simp) (by simp) (by simp)) (fun _ _ _ => ⟨_, rfl⟩)
  exact ⟨m, s, h1, h (fun _ _ _ => 0) 1 1 (1 / 10) (fun _ => normalLP 0 1) (by norm_num)
    (fun _ => (continuous_normalLP 0 1).measurable) (fun _ => integrable_normalLP 0 one_ne_zero) ⟨[2], [1, 2]⟩
    (exθ90 "corr_matrix") ![1, 2] exL46 rfl ⟨rfl, fun i => by fin_cases i <;> rfl⟩
    (fun i => by fin_cases i <;> simp) ⟨rfl, fun i j => by fin_cases i <;> fin_cases j <;> rfl⟩ exL46_factor⟩

end
end PV
