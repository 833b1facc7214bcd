import Verif.Lemmas.NegBinomial
import Verif.Props.Positive
import Verif.Props.PosteriorProper

/-!
# C99, C100 for counts: the negative binomial likelihood
-/

set_option linter.unusedSectionVars false

namespace PV
open Tensor Filter MeasureTheory

section
variable {ι α : Type} [Fintype ι]

theorem sum_le_zero {g : α → ℝ} {l : List α} (h : ∀ a ∈ l, g a ≤ 0) : (l.map g).sum ≤ 0 := by
  have := List.sum_le_sum (f := g) (g := fun _ => (0 : ℝ)) h
  simpa using this

theorem sum_le_one {g : α → ℝ} {l : List α} (h : ∀ a ∈ l, g a ≤ 0) {a : α} (ha : a ∈ l) :
    (l.map g).sum ≤ g a := by
  induction l with
  | nil => cases ha
  | cons b l ih =>
    have h0 : (l.map g).sum ≤ 0 := sum_le_zero fun d hd => h d (List.mem_cons_of_mem _ hd)
    rw [List.map_cons, List.sum_cons]
    rcases List.mem_cons.1 ha with rfl | ha
    · linarith
    · have h1 := ih (fun d hd => h d (List.mem_cons_of_mem _ hd)) ha
      have h2 := h b List.mem_cons_self
      linarith

theorem obs_nonpos {σ scale m k : ℝ} (hσ : 0 < σ) (hs : 0 < scale) (hk : 0 ≤ k) :
    obsLog .negbinomial σ scale m k ≤ 0 :=
  negBinomial2LP_nonpos (mul_pos (C44_positive m).1 hs) (mul_pos hσ hs) hk

theorem obs_le_factor {σ scale m k : ℝ} (hσ : 0 < σ) (hs : 0 < scale) (hk : 0 ≤ k) :
    obsLog .negbinomial σ scale m k ≤ negBinomialFactor k (σ * scale) :=
  negBinomial2LP_le_factor (mul_pos (C44_positive m).1 hs) (mul_pos hσ hs) hk

theorem continuousOn_lik {X : Type} [TopologicalSpace X] {S : Set X} {σ : X → ℝ} {M : α → X → ℝ} {g : α → ℝ}
    {scale : ℝ} (hs : 0 < scale) (hσ : ContinuousOn σ S) (hσ0 : ∀ z ∈ S, 0 < σ z) (hM : ∀ a, Continuous (M a)) :
    ∀ l : List α, (∀ a ∈ l, 0 ≤ g a) →
    ContinuousOn (fun z => (l.map fun a => obsLog .negbinomial (σ z) scale (M a z) (g a)).sum) S
  | [], _ => by
    simp only [List.map_nil, List.sum_nil]
    exact continuousOn_const
  | a :: l, h => by
    simp only [List.map_cons, List.sum_cons]
    refine ContinuousOn.add ?_ (continuousOn_lik hs hσ hσ0 hM l fun b hb => h b (List.mem_cons_of_mem _ hb))
    exact continuousOn_negBinomial2LP (h a List.mem_cons_self)
      (((C44_continuous.comp (hM a)).mul continuous_const).continuousOn) (hσ.mul continuousOn_const)
      (fun z _ => mul_pos (C44_positive _).1 hs) fun z hz => mul_pos (hσ0 z hz) hs

/-- The noise level of counts with a positive entry stays away from 0 and infinity. -/
theorem tendsto_concentration {ns scale k : ℝ} (hns : ns ≠ 0) (hs : 0 < scale) (hk : 0 < k) :
    Tendsto (fun u => halfNormalLP ns (Real.exp u) + min 0 (negBinomialFactor k (Real.exp u * scale)))
      (cocompact ℝ) atBot := by
  rw [cocompact_eq_atBot_atTop, tendsto_sup]
  constructor
  · have h1 : Tendsto (fun u => Real.exp u * scale) atBot (nhdsWithin 0 (Set.Ioi 0)) := by
      refine tendsto_nhdsWithin_iff.2 ⟨?_, Eventually.of_forall fun u => mul_pos (Real.exp_pos u) hs⟩
      have := Real.tendsto_exp_atBot.mul_const scale
      rwa [zero_mul] at this
    have h2 := (tendsto_negBinomialFactor hk).comp h1
    refine tendsto_atBot_mono (fun u => add_le_add (halfNormalLP_le ns _) (min_le_right _ _)) ?_
    exact tendsto_atBot_add_const_left _ _ h2
  · have h1 : Tendsto (fun z => halfNormalLP ns z) (cocompact ℝ) atBot :=
      tendsto_atBot_add_const_left _ _ (tendsto_normalLP 0 hns)
    have h2 : Tendsto (fun u => halfNormalLP ns (Real.exp u)) atTop atBot :=
      h1.comp (Real.tendsto_exp_atTop.mono_right atTop_le_cocompact)
    exact tendsto_atBot_mono (fun u => by
      have := min_le_left 0 (negBinomialFactor k (Real.exp u * scale))
      linarith) h2

theorem counts_best {f : ι → ℝ → ℝ} {M : α → (ι → ℝ) → ℝ} {g : α → ℝ} {l : List α} {ns scale : ℝ}
    (hf : ∀ i, Continuous (f i)) (ht : ∀ i, Tendsto (f i) (cocompact ℝ) atBot) (hM : ∀ a, Continuous (M a))
    (hns : ns ≠ 0) (hs : 0 < scale) (hg : ∀ a ∈ l, 0 ≤ g a) {a₀ : α} (ha₀ : a₀ ∈ l) (hpos : 0 < g a₀)
    (D : ℝ → (ι → ℝ) → ℝ) (hD : ∀ σ v, D σ v = ∑ i, f i (v i)
      + (halfNormalLP ns σ + (l.map fun a => obsLog .negbinomial σ scale (M a v) (g a)).sum)) :
    ∃ σ v, 0 < σ ∧ ∀ σ' v', 0 < σ' → D σ' v' ≤ D σ v := by
  let F : Unit ⊕ ι → ℝ → ℝ
    | .inl _ => fun u => halfNormalLP ns (Real.exp u) + min 0 (negBinomialFactor (g a₀) (Real.exp u * scale))
    | .inr i => f i
  let R : (Unit ⊕ ι → ℝ) → ℝ := fun w =>
    (l.map fun a => obsLog .negbinomial (Real.exp (w (.inl ()))) scale (M a fun i => w (.inr i)) (g a)).sum
      - min 0 (negBinomialFactor (g a₀) (Real.exp (w (.inl ())) * scale))
  have hfac : Continuous fun u : ℝ => min 0 (negBinomialFactor (g a₀) (Real.exp u * scale)) :=
    continuous_const.min ((continuousOn_negBinomialFactor hpos.le).comp_continuous
      (Real.continuous_exp.mul continuous_const) fun u => mul_pos (Real.exp_pos u) hs)
  have hform : ∀ w : Unit ⊕ ι → ℝ, D (Real.exp (w (.inl ()))) (fun i => w (.inr i)) = ∑ i, F i (w i) + R w := by
    intro w
    have h0 : ∑ u : Unit, F (.inl u) (w (.inl u)) = F (.inl ()) (w (.inl ())) := by simp
    rw [hD, Fintype.sum_sum_type, h0]
    change _ = halfNormalLP ns (Real.exp (w (.inl ()))) + min 0 (negBinomialFactor (g a₀) (Real.exp (w (.inl ())) * scale))
      + (∑ i, f i (w (.inr i))) + (_ - _)
    ring
  obtain ⟨w, hw⟩ := exists_best (f := F) (R := R) (C := 0)
    (by
      rintro (_ | i)
      · exact (continuous_const.add ((continuous_normalLP _ _).comp Real.continuous_exp)).add hfac
      · exact hf i)
    (by
      rintro (_ | i)
      · exact tendsto_concentration hns hs hpos
      · exact ht i)
    (by
      have h1 := continuousOn_lik (S := Set.univ) (σ := fun w : Unit ⊕ ι → ℝ => Real.exp (w (.inl ())))
        (M := fun a w => M a fun i => w (.inr i)) (g := g) hs
        (Real.continuous_exp.comp (continuous_apply _)).continuousOn (fun z _ => Real.exp_pos _)
        (fun a => (hM a).comp (continuous_pi fun i => continuous_apply _)) l hg
      exact (continuousOn_univ.1 h1).sub (hfac.comp (continuous_apply _)))
    (by
      intro w
      have h1 := sum_le_one (g := fun a => obsLog .negbinomial (Real.exp (w (.inl ()))) scale
        (M a fun i => w (.inr i)) (g a)) (fun a ha => obs_nonpos (Real.exp_pos _) hs (hg a ha)) ha₀
      have h2 : obsLog .negbinomial (Real.exp (w (.inl ()))) scale (M a₀ fun i => w (.inr i)) (g a₀)
          ≤ min 0 (negBinomialFactor (g a₀) (Real.exp (w (.inl ())) * scale)) :=
        le_min (obs_nonpos (Real.exp_pos _) hs hpos.le) (obs_le_factor (Real.exp_pos _) hs hpos.le)
      exact sub_nonpos.2 (h1.trans h2))
  refine ⟨Real.exp (w (.inl ())), fun i => w (.inr i), Real.exp_pos _, fun σ' v' hσ' => ?_⟩
  have h1 := hw (Sum.elim (fun _ => Real.log σ') v')
  rw [← hform, ← hform] at h1
  simpa [Real.exp_log hσ'] using h1

theorem counts_best' {f : ι → ℝ → ℝ} {M : α → (ι → ℝ) → ℝ} {g : α → ℝ} {l : List α} {ns scale : ℝ}
    {Q : ℝ → (ι → ℝ) → PyM ℝ} (hQ : ∀ σ v, Q σ v = .ok (∑ i, f i (v i)
      + (halfNormalLP ns σ + (l.map fun a => obsLog .negbinomial σ scale (M a v) (g a)).sum)))
    (hf : ∀ i, Continuous (f i)) (ht : ∀ i, Tendsto (f i) (cocompact ℝ) atBot) (hM : ∀ a, Continuous (M a))
    (hns : ns ≠ 0) (hs : 0 < scale) (hg : ∀ a ∈ l, 0 ≤ g a) (hpos : ∃ a ∈ l, 0 < g a) :
    ∃ σ v L, 0 < σ ∧ Q σ v = .ok L ∧ ∀ σ' v' L', 0 < σ' → Q σ' v' = .ok L' → L' ≤ L := by
  obtain ⟨a₀, ha₀, hpos⟩ := hpos
  obtain ⟨σ, v, hσ, h⟩ := counts_best hf ht hM hns hs hg ha₀ hpos _ fun σ v => rfl
  refine ⟨σ, v, _, hσ, hQ σ v, fun σ' v' L' hσ' hL' => ?_⟩
  rw [hQ] at hL'
  cases hL'
  exact h σ' v' hσ'

theorem counts_proper {f : ι → ℝ → ℝ} {M : α → (ι → ℝ) → ℝ} {g : α → ℝ} {l : List α} {ns scale : ℝ}
    {P : ℝ × (ι → ℝ) → ℝ} (hP : ∀ z, P z = ∑ i, f i (z.2 i)
      + (halfNormalLP ns z.1 + (l.map fun a => obsLog .negbinomial z.1 scale (M a z.2) (g a)).sum))
    (hf : ∀ i, Integrable fun z => Real.exp (f i z)) (hm : ∀ i, Measurable (f i)) (hM : ∀ a, Continuous (M a))
    (hns : ns ≠ 0) (hs : 0 < scale) (hg : ∀ a ∈ l, 0 ≤ g a) :
    Integrable (fun z => Real.exp (P z)) (paramVolume ι) ∧ 0 < ∫ z, Real.exp (P z) ∂(paramVolume ι) := by
  classical
  let S : Set (ℝ × (ι → ℝ)) := {z | 0 < z.1}
  have hS : MeasurableSet S := measurableSet_lt measurable_const measurable_fst
  let R : ℝ × (ι → ℝ) → ℝ := S.piecewise
    (fun z => (l.map fun a => obsLog .negbinomial z.1 scale (M a z.2) (g a)).sum) fun _ => 0
  have hR : Measurable R := ContinuousOn.measurable_piecewise
    (continuousOn_lik hs continuous_fst.continuousOn (fun z hz => hz)
      (fun a => (hM a).comp continuous_snd) l hg) continuousOn_const hS
  have hin : ∀ z, z ∈ S → R z = (l.map fun a => obsLog .negbinomial z.1 scale (M a z.2) (g a)).sum := fun z hz =>
    Set.piecewise_eq_of_mem _ _ _ hz
  have hint := proper_density (R := R) (C := 0) (ns := ns) hf hm hR hns (by
    intro σ v hσ
    rw [hin (σ, v) hσ]
    exact sum_le_zero fun a ha => obs_nonpos hσ hs (hg a ha))
  have hint' : Integrable (fun z => Real.exp (P z)) (paramVolume ι) := by
    refine hint.congr ?_
    have hpos : ∀ᵐ z ∂(paramVolume ι), 0 < z.1 := by
      have : ∀ᵐ σ ∂((volume : Measure ℝ).restrict (Set.Ioi 0)), (0 : ℝ) < σ :=
        ae_restrict_mem measurableSet_Ioi
      exact Measure.quasiMeasurePreserving_fst.ae this
    filter_upwards [hpos] with z hz
    rw [hP, hin z hz]
  have : NeZero (paramVolume ι) := ⟨paramVolume_ne_zero _⟩
  exact ⟨hint', integral_exp_pos hint'⟩

end

section
variable {τ : Type} [LinearOrder τ] {position : τ → ℤ} {compile : String → PyM (String → Bool)}
  {order : List String → List String} {days : τ → ℝ} {p : PiecewiseParams ℝ τ}
  {kind : String → EffectKind} {cfg : UniConfig (UsualAttrs τ) (Scale ℝ) τ ℝ (AnyData ℝ) ℝ}
  {y x : Frame String τ ℝ} {c : String} {X : Option (Frame String τ ℝ)}
  {m : UniFit (UsualAttrs τ) (Scale ℝ) τ ℝ (AnyData ℝ) ℝ}

/-- **C99** for counts: with a negative binomial likelihood, maximum a posteriori inference always
has an answer, for effects of all modes and all non-negative data that are not all zero. -/
theorem C99_counts (hU : Usual position compile order days suggestLinear p kind cfg)
    (hp : Starts p) (hT : Training cfg y c X x) (hfit : uniFitData cfg y X = .ok m) {b : ℝ}
    (hb : p.priorScale = .scalar b) (hb0 : 0 < b)
    (hw : ∀ n ss mode s, kind n = .seasonal ss mode s → waves ss ≠ [])
    (hpc : ∀ n, Continuous (kind n).prior) (hpt : ∀ n, Tendsto (kind n).prior (cocompact ℝ) atBot)
    (hy : ∀ row ∈ y.rows, 0 ≤ row.val c) (hpos : ∃ row ∈ y.rows, 0 < row.val c) :
    ∃ s cs, m.trend.st.2 = .piecewise (some s) ∧ s.cps = [cs] ∧
    ∀ ns scale os : ℝ, ns ≠ 0 → 0 < scale → os ≠ 0 → ∃ θ, BestOfAll kind .negbinomial cs ns scale os m θ := by
  obtain ⟨s, cs, hs, hcs, hC⟩ := usual_coords_any hU hT hfit hb hw
  obtain ⟨hoff, hrates⟩ := usual_offset hU hp hT hfit hs
  refine ⟨s, cs, hs, hcs, ?_⟩
  intro ns scale os hns hscale hos
  obtain ⟨μ, -, hsz, hval, hall⟩ := hC hoff hrates
  obtain ⟨σ, v, L, hσ, hL, hbest⟩ := counts_best' (fun σ v => hval .negbinomial ns scale os σ v)
    (continuous_coordPrior hpc) (tendsto_coordPrior hos hb0 hpt) (fun row => continuous_coordMean _)
    hns hscale hy hpos
  refine ⟨sitesOf FittedEffect.name σ v, hsz _ _, hσ, L, hL, fun θ₂ L₂ hz hσ₂ hL₂ => ?_⟩
  obtain ⟨σ', hσ'⟩ := List.length_eq_one_iff.1 hz.noise
  have hσ0 : siteScalar θ₂ "noise_scale" = σ' := by
    unfold siteScalar
    rw [hσ']
    rfl
  rw [hσ0] at hσ₂
  rw [hall .negbinomial ns scale os σ' θ₂ hz hσ'] at hL₂
  exact hbest σ' _ L₂ hσ₂ hL₂

/-- **C100** for counts: the posterior is always a probability distribution. -/
theorem C100_counts (hU : Usual position compile order days suggestLinear p kind cfg)
    (hp : Starts p) (hT : Training cfg y c X x) (hfit : uniFitData cfg y X = .ok m) {b : ℝ}
    (hb : p.priorScale = .scalar b) (hb0 : 0 < b)
    (hw : ∀ n ss mode s, kind n = .seasonal ss mode s → waves ss ≠ [])
    (hpm : ∀ n, Measurable (kind n).prior) (hpi : ∀ n, Integrable fun z => Real.exp ((kind n).prior z))
    (hy : ∀ row ∈ y.rows, 0 ≤ row.val c) :
    ∃ s cs, m.trend.st.2 = .piecewise (some s) ∧ s.cps = [cs] ∧
    ∀ ns scale os : ℝ, ns ≠ 0 → 0 < scale → os ≠ 0 → ProperPosterior kind .negbinomial cs ns scale os m := by
  obtain ⟨s, cs, hs, hcs, hC⟩ := usual_coords_any hU hT hfit hb hw
  obtain ⟨hoff, hrates⟩ := usual_offset hU hp hT hfit hs
  refine ⟨s, cs, hs, hcs, ?_⟩
  intro ns scale os hns hscale hos
  obtain ⟨μ, -, hsz, hval, hall⟩ := hC hoff hrates
  exact ⟨_, fun σ v => hval .negbinomial ns scale os σ v, counts_proper (fun _ => rfl)
    (integrable_coordPrior hos hb0 hpi) (measurable_coordPrior hpm) (fun row => continuous_coordMean _)
    hns hscale hy⟩

end
/-! ## Examples

Counts 1, 3, 4 scaled by 4, with an additive seasonality and multiplicative linear effects. -/

noncomputable section

def exCfg100 : UniConfig (UsualAttrs ℤ) (Scale ℝ) ℤ ℝ (AnyData ℝ) ℝ :=
  { exCfg95 with discrete := true, scale := 4 }

theorem exUsual100 : Usual id someCompile id (fun n : ℤ => (n : ℝ)) suggestLinear exP85 exKind95 exCfg100 :=
  ⟨exUsual95.trend, exUsual95.squeeze, exUsual95.interval, exUsual95.range, exUsual95.effects,
    exUsual95.default, exUsual95.nodup, exUsual95.reserved, exUsual95.notTrend⟩

theorem exTrainingCounts100 : Training exCfg100 exY85 "y" (some exX97) exX97 :=
  ⟨exTraining97.flat, exTraining97.column, exTraining97.sorted, exTraining97.some, exTraining97.features,
    exTraining97.dates⟩

theorem exCounts100 : ∃ m, uniFitData exCfg100 exY85 (some exX97) = .ok m :=
  C98_fits exUsual100 ⟨exValid98.interval, exValid98.range, .inl rfl, exValid98.seasons, exValid98.regexes⟩
    (fun _ _ h => Int.cast_lt.2 h) exTrainingCounts100 (by simp [exY85]) (by rintro _ ⟨⟩ a ha; exact ha)

example : ∃ m, uniFitData exCfg100 exY85 (some exX97) = .ok m ∧
    ∃ s cs, m.trend.st.2 = .piecewise (some s) ∧ s.cps = [cs] ∧
    (∃ θ, BestOfAll exKind95 .negbinomial cs (1 / 2) 4 (1 / 10) m θ) ∧
    ProperPosterior exKind95 .negbinomial cs (1 / 2) 4 (1 / 10) m := by
  obtain ⟨m, hm⟩ := exCounts100
  have hy : ∀ row ∈ exY85.rows, 0 ≤ row.val "y" := by simp [exY85]
  obtain ⟨s, cs, hs, hcs, h⟩ := C99_counts exUsual100 (.inl rfl) exTrainingCounts100 hm (b := 2) rfl (by norm_num)
    exWaves98 exContinuous98 exTendsto98 hy ⟨_, List.mem_cons_self, by norm_num⟩
  obtain ⟨s', cs', hs', hcs', h'⟩ := C100_counts exUsual100 (.inl rfl) exTrainingCounts100 hm (b := 2) rfl (by norm_num)
    exWaves98 (fun n => (exContinuous98 n).measurable) exIntegrable100 hy
  rw [hs] at hs'
  cases hs'
  rw [hcs] at hcs'
  cases hcs'
  exact ⟨m, hm, s, cs, hs, hcs, h _ _ _ (by norm_num) (by norm_num) (by norm_num),
    h' _ _ _ (by norm_num) (by norm_num) (by norm_num)⟩

end
end PV
