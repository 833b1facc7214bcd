import Verif.Props.PanelDefined
import Verif.Props.UsualFit

/-!
# C90 for fitted hierarchical forecasters

The log posterior of a valid hierarchical forecaster after fit, in terms of the table that the user
passed: normal observations of all series at a date, around means that use the offset, changepoint
coefficients and regressors of their own series.
-/

set_option linter.unusedSectionVars false

namespace PV
open Tensor Filter

section
variable {τ : Type} [LinearOrder τ]

/-- The effect modes of a forecaster with linear effects. -/
structure Modes (mode : String → String)
    (cfg : HierConfig (Option (PiecewiseState ℝ τ)) (Scale ℝ) τ (Tensor ℝ) ℝ) : Prop where
  effects : ∀ e ∈ cfg.effects, e.effect.cls = linearClass (mode e.name)
  default : cfg.default.cls = linearClass (mode "exogenous_variables_effect")

/-- Specification: the values of the target for the series that are not aggregates. -/
def Observed (y : Frame String τ ℝ) (c : String) (obs : List String → τ → ℝ) : Prop :=
  ∀ r ∈ y.rows, "__total" ∉ r.sid → obs r.sid r.time = r.val c

/-- Specification: the mean of a series at a date. -/
noncomputable def panelMean {S Y Sc D : Type} (days : τ → ℝ) (mode : String → String)
    (s : PiecewiseState ℝ τ) (ss : List (List String)) (l : List (FittedEffect S Y Sc τ ℝ D ℝ))
    (x : Frame String τ ℝ) (θ : SiteEnv ℝ) (a : List String) (t : τ) : ℝ :=
  panelTrendAt days s ss θ a t + (l.map fun fe => combine (mode fe.name) (panelTrendAt days s ss θ a t)
    (dot (fe.cols.map (cellAt x a t)) (θ (fe.name ++ "/coefs")).data)).sum

/-- The log density of the hierarchical forecaster. -/
noncomputable def hierDensity (lkj : Nat → ℝ → Tensor ℝ → ℝ) (ns conc os : ℝ) (prior : String → ℝ → ℝ)
    (m : HierFit (Option (PiecewiseState ℝ τ)) (Scale ℝ) τ (Tensor ℝ) ℝ) (θ : SiteEnv ℝ) : PyM ℝ :=
  panelLogJoint lkj ns conc m.single m.yArray (m.trend.cls.call m.trend.st)
    (piecewisePriors os m.trend.st.2) m.trendData m.data (callsOf m.objs) (fun n => linearPriors (prior n)) θ

variable {days : τ → ℝ} {p : PiecewiseParams ℝ τ}
  {cfg : HierConfig (Option (PiecewiseState ℝ τ)) (Scale ℝ) τ (Tensor ℝ) ℝ}
  {mode : String → String}

theorem hier_modes (hM : Modes mode cfg) {y : Frame String τ ℝ} {X : Option (Frame String τ ℝ)}
    {m : HierFit (Option (PiecewiseState ℝ τ)) (Scale ℝ) τ (Tensor ℝ) ℝ} (hfit : hierFitData cfg y X = .ok m) :
    ∀ fe ∈ m.fitted, fe.effect.cls = linearClass (mode fe.name) := by
  obtain ⟨yB, x, -, -, -, hfe, -⟩ := hierFitData_all hfit
  obtain ⟨fes, hf, -, hcase⟩ := fitEffects_ok.1 hfe
  have h1 : ∀ fe ∈ fes, fe.effect.cls = linearClass (mode fe.name) := by
    intro fe hfe
    obtain ⟨e, hmem, hn, -, hfit⟩ := exists_of_forall₂ hf hfe
    rw [(effectFit_ok hfit).1, hn]
    exact hM.effects e hmem
  rcases hcase with ⟨-, h⟩ | ⟨eff, -, h2, h⟩
  · rw [h]; exact h1
  · rw [h]
    intro fe hfe
    rcases List.mem_append.1 hfe with h3 | h3
    · exact h1 fe h3
    · rw [List.mem_singleton.1 h3]
      show eff.cls = _
      rw [(effectFit_ok h2).1]
      exact hM.default

/-- The array of the target. -/
theorem panel_cells {yB : Frame String τ ℝ} {ts : List τ} (hP : PanelIn yB yB.series ts)
    (hdates : unique yB.times = ts) {c : String} (hcB : yB.cols = [c]) {obs : List String → τ → ℝ}
    (ho : ∀ r ∈ yB.rows, obs r.sid r.time = r.val c) {ya : Tensor ℝ}
    (h : yB.seriesToTensor = .ok ya) : ya = panelOf yB.series ts obs := by
  have hft : yB.filterTimes ts = yB := by
    unfold Frame.filterTimes
    congr 1
    refine List.filter_eq_self.2 fun r hr => ?_
    have : r.time ∈ ts := by
      rw [← hdates, mem_unique]
      exact List.mem_map.2 ⟨r, hr, rfl⟩
    simpa using this
  have hd := panel_data hP (cs := [c]) (by rw [hcB]; simp) (d := ya) (by
    have : ({ yB.filterTimes ts with cols := [c] } : Frame String τ ℝ) = yB := by
      rw [hft, ← hcB]
    rw [this]
    unfold Frame.seriesToTensorOrArray
    rw [if_neg hP.panel, h])
  rw [hd]
  unfold panelOf
  simp only [List.cons_append, List.nil_append, List.length_singleton, List.map_singleton, Tensor.mk.injEq,
    true_and]
  rw [← List.flatMap_id', List.flatMap_assoc]
  refine List.flatMap_congr fun s hs => ?_
  have hfl : ∀ l : List τ, (l.map fun t => [cellAt yB s t c]).flatten = l.map fun t => cellAt yB s t c := by
    intro l
    induction l with
    | nil => rfl
    | cons a l ih => simp [ih]
  rw [List.flatMap_id', hfl]
  refine List.map_congr_left fun t ht => ?_
  obtain ⟨r, hr, rfl, rfl⟩ := hP.covers s hs t ht
  rw [cellAt_of_mem hP.sorted hr (by rw [hcB]; simp)]
  exact (ho r hr).symm

/-- The tensor of the target holds the observations. -/
theorem panel_target {y yB : Frame String τ ℝ} {ts : List τ} (hB : BottomPanel y yB ts) {c : String}
    (hc : y.cols = [c]) {obs : List String → τ → ℝ} (ho : Observed y c obs) {ya : Tensor ℝ}
    (h : yB.seriesToTensor = .ok ya) : ya = panelOf yB.series ts obs :=
  panel_cells hB.panel hB.dates (hB.cols.trans hc) (fun r hr => ho r (hB.given r hr).1 (hB.given r hr).2) h

theorem hier_kept {ss : List (List String)} {ts : List τ} {X : Option (Frame String τ ℝ)}
    {m : HierFit (Option (PiecewiseState ℝ τ)) (Scale ℝ) τ (Tensor ℝ) ℝ} {x : Frame String τ ℝ}
    {s : PiecewiseState ℝ τ} (h : HierFitted days p ss ts X m x s)
    {fe : FittedEffect (Option (PiecewiseState ℝ τ)) (Frame String τ ℝ) (Scale ℝ) τ ℝ (Tensor ℝ) ℝ} :
    fe ∈ kept m.fitted ↔ fe ∈ m.fitted ∧ fe.cols ≠ [] := by
  unfold kept
  rw [List.mem_filter]
  constructor
  · rintro ⟨h1, h2⟩
    obtain ⟨⟨md, hc⟩, hst, -⟩ := h.linear fe h1
    refine ⟨h1, fun h0 => ?_⟩
    rw [linear_skip hc hst, h0] at h2
    simp at h2
  · rintro ⟨h1, h2⟩
    obtain ⟨⟨md, hc⟩, hst, -⟩ := h.linear fe h1
    refine ⟨h1, ?_⟩
    rw [linear_skip hc hst]
    simp [h2]

/-- The parts of the log posterior that do not depend on the parameters of the mean. -/
noncomputable def noisePart (lkj : Nat → ℝ → Tensor ℝ → ℝ) (ns conc : ℝ) (n : Nat) (θ : SiteEnv ℝ) : ℝ :=
  ((θ "std_observation").data.map (halfNormalLP ns)).sum + lkj n conc (θ "corr_matrix")

/-- The log priors of the parameters of the mean. -/
noncomputable def hierPrior {S Y Sc D : Type} (os : ℝ) (prior : String → ℝ → ℝ) (s : PiecewiseState ℝ τ)
    (l : List (FittedEffect S Y Sc τ ℝ D ℝ)) (θ : SiteEnv ℝ) : ℝ :=
  (List.zipWith (fun μ o => normalLP μ os o) s.offsetLoc (θ "offset").data).sum
    + (List.zipWith (fun (q : ℝ × ℝ) δ => laplaceLP q.1 q.2 δ) (s.priorLoc.zip s.priorScale)
        (θ "changepoint_coefficients").data).sum
    + (l.map fun fe => ((θ (fe.name ++ "/coefs")).data.map (prior fe.name)).sum).sum

/-- The log likelihood for given noise levels and correlation. -/
noncomputable def hierLik {S Y Sc D : Type} (days : τ → ℝ) (mode : String → String) (s : PiecewiseState ℝ τ)
    (ss : List (List String)) (ts : List τ) (l : List (FittedEffect S Y Sc τ ℝ D ℝ)) (x : Frame String τ ℝ)
    (obs : List String → τ → ℝ) (σ : Fin ss.length → ℝ) (C : Matrix (Fin ss.length) (Fin ss.length) ℝ)
    (θ : SiteEnv ℝ) : ℝ :=
  (ts.map fun t => normalDensity (fun i => panelMean days mode s ss l x θ (ss.get i) t)
    (panelCovariance σ C) (fun i => obs (ss.get i) t)).sum

/-- The log posterior after fit, with the table of regressors it is based on. -/
theorem hier_posterior (hV : ValidHier days p cfg) (hM : Modes mode cfg) {y : Frame String τ ℝ}
    (hy : RegularPanel y) {c : String} (hc : y.cols = [c]) {obs : List String → τ → ℝ} (hobs : Observed y c obs)
    {ss : List (List String)} (hss : SeriesOf y ss) (h2 : 2 ≤ ss.length) {ts : List τ} (hts : DatesOf y ts)
    (hp : p.priorScale.Fits ss.length) {X : Option (Frame String τ ℝ)} (hX : GivenExog X ss ts)
    (hcomp : ∀ c ∈ givenCols X, c ∉ cfg.shared → ∃ q, cfg.compile c = .ok q)
    {m : HierFit (Option (PiecewiseState ℝ τ)) (Scale ℝ) τ (Tensor ℝ) ℝ} (hfit : hierFitData cfg y X = .ok m) :
    ∃ x s, hierExog cfg (aggregate cfg.keep y) X = .ok (m.expand, x) ∧ HierFitted days p ss ts X m x s ∧
      s.offsetLoc.length = ss.length ∧ LinedUp s.cps p.priorScale (s.priorLoc, s.priorScale) ∧
      ∀ (lkj : Nat → ℝ → Tensor ℝ → ℝ) (ns conc os : ℝ) (prior : String → ℝ → ℝ) (θ : SiteEnv ℝ)
        (σ : Fin ss.length → ℝ) (C : Matrix (Fin ss.length) (Fin ss.length) ℝ), HierSizes s m θ →
        (θ "std_observation").data.length = ss.length → VectorSite (θ "std_observation") σ → (∀ i, 0 < σ i) →
        MatrixSite (θ "corr_matrix") C → CorrFactor C →
        hierDensity lkj ns conc os prior m θ = .ok (hierPrior os prior s (kept m.fitted) θ
          + (noisePart lkj ns conc ss.length θ + hierLik days mode s ss ts (kept m.fitted) x obs σ C θ)) := by
  obtain ⟨m', x, s, hfit', h, yB, hloc, hB, hser, hya, hsh, hw, hpf, hsing, hex, -⟩ := hier_fits hV hy hss hts hX hcomp
  rw [hfit] at hfit'
  cases hfit'
  have hlv : 2 ≤ yB.nlevels := by rw [hB.nlevels]; exact hy.levels
  have hn : nSeriesOf yB = ss.length := by
    unfold nSeriesOf
    rw [if_pos (by omega), hser]
  obtain ⟨i, hi, -⟩ := hV.interval
  obtain ⟨r, hr, -⟩ := hV.range
  obtain ⟨-, -, g3, g4⟩ := C43_fit hpf (by omega) (fun y' hy' => by
      obtain ⟨q1, -, q2⟩ := hV.plain.same hy'
      exact ⟨q1, series_congr_index q2⟩) (by rw [hi]; trivial) (by rw [hr]; trivial) (by rw [hn]; exact hp)
  refine ⟨x, s, hex, h, g3.trans hn, g4, ?_⟩
  intro lkj ns conc os prior θ σ C hθ hσl hσs hσ hCs hC
  obtain ⟨s', hs', -, hden⟩ := C113_density hV hy hss h2 hts hp hX hcomp hfit
  rw [h.state] at hs'
  cases hs'
  obtain ⟨l, hl⟩ := hden lkj ns conc os prior θ hθ hσl hCs.1
  have hmodes := hier_modes hM hfit
  have hyp := panel_target hB hc hobs hya
  rw [hser] at hyp
  have hs1 : m.single = false := by
    rw [hsing]
    simp
    omega
  unfold hierDensity
  rw [hl]
  congr 1
  rw [hs1, hyp, h.state] at hl
  have := C90_posterior (trend := m.trend) (Ok := PanelSites s.cps) (g := panelTrendAt days s ss)
    (C74_piecewise h.cls h.state (hss.sorted.imp ne_of_lt) h.series h.changepoints h.count (.inl (by omega)))
    (fitted := m.fitted)
    (f := fun fe => cellValue (mode fe.name) (fe.effect.st.1.inputCols.getD []) fun θ r => [dot r (θ "coefs").data])
    (fun fe hfe => by
      have hmem := (List.mem_filter.1 hfe).1
      have hcls := hmodes fe hmem
      exact C74_effect (by rw [hcls]; rfl) (fun _ _ _ => by rw [hcls]; rfl) (fun _ => by rw [hcls]; rfl)
        rowWise_linear)
    h.nodup h.notTrend h.panel h.trendData h.data h.objs (C85_piecewise_prior m.trend os s)
    (fun fe _ => C85_linear_prior fe.effect (prior fe.name)) hθ.trend hσs hσ hCs hC hl
  rw [this]
  have hsc : ∀ n, θ.scope n "coefs" = θ (n ++ "/coefs") := by
    intro n
    unfold SiteEnv.scope
    rw [String.append_assoc]
    rfl
  unfold hierPrior noisePart hierLik panelMean
  simp only [hsc]
  have hone : ∀ t (i : Fin ss.length), ((kept m.fitted).map fun fe =>
      cellValue (mode fe.name) (fe.effect.st.1.inputCols.getD []) (fun θ r => [dot r (θ "coefs").data])
        (θ.scope fe.name) (ss.get i) t (panelTrendAt days s ss θ (ss.get i) t)
        (onCols fe.cols (cellAt x (ss.get i) t))).sum
      = ((kept m.fitted).map fun fe => combine (mode fe.name) (panelTrendAt days s ss θ (ss.get i) t)
          (dot (fe.cols.map (cellAt x (ss.get i) t)) (θ (fe.name ++ "/coefs")).data)).sum := by
    intro t i
    congr 1
    refine List.map_congr_left fun fe hfe => ?_
    have hmem := (List.mem_filter.1 hfe).1
    obtain ⟨-, hst, -⟩ := h.linear fe hmem
    unfold cellValue combine
    simp only [hst, Option.getD_some, List.headD_cons, hsc]
    rw [List.map_congr_left (g := cellAt x (ss.get i) t) fun c hc => by
      unfold onCols
      rw [if_pos hc]]
  simp only [hone]
  ring

/-- **C90** after fit: the log posterior is the sum of the log priors and the log density of the
observations, which are normal around the means of their series. -/
theorem C90_fitted (hV : ValidHier days p cfg) (hM : Modes mode cfg) {y : Frame String τ ℝ}
    (hy : RegularPanel y) {c : String} (hc : y.cols = [c]) {obs : List String → τ → ℝ} (hobs : Observed y c obs)
    {ss : List (List String)} (hss : SeriesOf y ss) (h2 : 2 ≤ ss.length) {ts : List τ} (hts : DatesOf y ts)
    (hp : p.priorScale.Fits ss.length) {X : Option (Frame String τ ℝ)} (hX : GivenExog X ss ts)
    (hcomp : ∀ c ∈ givenCols X, c ∉ cfg.shared → ∃ q, cfg.compile c = .ok q)
    {m : HierFit (Option (PiecewiseState ℝ τ)) (Scale ℝ) τ (Tensor ℝ) ℝ} (hfit : hierFitData cfg y X = .ok m) :
    ∃ x s, HierFitted days p ss ts X m x s ∧ s.offsetLoc.length = ss.length ∧
      LinedUp s.cps p.priorScale (s.priorLoc, s.priorScale) ∧
      ∀ (lkj : Nat → ℝ → Tensor ℝ → ℝ) (ns conc os : ℝ) (prior : String → ℝ → ℝ) (θ : SiteEnv ℝ)
        (σ : Fin ss.length → ℝ) (C : Matrix (Fin ss.length) (Fin ss.length) ℝ), HierSizes s m θ →
        (θ "std_observation").data.length = ss.length → VectorSite (θ "std_observation") σ → (∀ i, 0 < σ i) →
        MatrixSite (θ "corr_matrix") C → CorrFactor C →
        hierDensity lkj ns conc os prior m θ = .ok (hierPrior os prior s (kept m.fitted) θ
          + (noisePart lkj ns conc ss.length θ + hierLik days mode s ss ts (kept m.fitted) x obs σ C θ)) :=
  let ⟨x, s, _, h⟩ := hier_posterior hV hM hy hc hobs hss h2 hts hp hX hcomp hfit
  ⟨x, s, h⟩

end
end PV
