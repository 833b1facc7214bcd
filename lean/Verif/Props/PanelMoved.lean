import Verif.Props.PanelSeparate
import Verif.Props.Mirror

/-!
# C120: moving the series of a panel

Turning all series of a panel upside down, or raising each series by a constant of its own, does the same to
the fit and the forecasts of the hierarchical forecaster.
-/

namespace PV
open Tensor Matrix

section
variable {τ : Type} [LinearOrder τ]
variable {days : τ → ℝ} {p : PiecewiseParams ℝ τ}
  {cfg : HierConfig (Option (PiecewiseState ℝ τ)) (Scale ℝ) τ (Tensor ℝ) ℝ} {mode : String → String}

/-- Specification: two panels with the same series and dates, where all values of the first are multiplied by
`ε` and each series `a` raised by `α a`. -/
structure MovedHistory (ε : ℝ) (α : List String → ℝ) (ss : List (List String)) (ts : List τ)
    (y y' : Frame String τ ℝ) (c c' : String) (obs obs' : List String → τ → ℝ) : Prop where
  panel : RegularPanel y
  panel' : RegularPanel y'
  column : y.cols = [c]
  column' : y'.cols = [c']
  observed : Observed y c obs
  observed' : Observed y' c' obs'
  series : SeriesOf y ss
  series' : SeriesOf y' ss
  dates : DatesOf y ts
  dates' : DatesOf y' ts
  moved : ∀ a ∈ ss, ∀ t ∈ ts, obs' a t = ε * obs a t + α a

/-- Specification: the moved parameters. -/
structure MovedPanel (ε : ℝ) (α : List String → ℝ) (mode : String → String) (ss : List (List String))
    (θ θ' : SiteEnv ℝ) : Prop where
  offset : (θ' "offset").data = List.zipWith (fun o a => ε * o + α a) (θ "offset").data ss
  changepoints : (θ' "changepoint_coefficients").data = (θ "changepoint_coefficients").data.map (ε * ·)
  coefs : ∀ n, (θ' (n ++ "/coefs")).data
    = if mode n = "additive" then (θ (n ++ "/coefs")).data.map (ε * ·) else (θ (n ++ "/coefs")).data
  std : θ' "std_observation" = θ "std_observation"
  corr : θ' "corr_matrix" = θ "corr_matrix"

theorem splitLengths_map {α β : Type} (f : α → β) : ∀ (ns : List Nat) (l : List α),
    ns.splitLengths (l.map f) = (ns.splitLengths l).map (List.map f)
  | [], _ => rfl
  | n :: ns, l => by
    simp only [List.splitLengths_cons, List.map_cons, ← List.map_take, ← List.map_drop, splitLengths_map f ns]

theorem dot_map_mul (ε : ℝ) : ∀ v l : List ℝ, Tensor.dot v (l.map (ε * ·)) = ε * Tensor.dot v l := by
  intro v l
  unfold Tensor.dot
  induction v generalizing l with
  | nil => simp
  | cons a v ih =>
    cases l with
    | nil => simp
    | cons b l =>
      simp only [List.map_cons, List.zipWith_cons_cons, List.sum_cons, ih]
      ring

/-- The trend of a series moves as its values do. -/
theorem panelTrend_moved {ε : ℝ} {α : List String → ℝ} {ss : List (List String)} {θ θ' : SiteEnv ℝ}
    (hθ : MovedPanel ε α mode ss θ θ') {s s' : PiecewiseState ℝ τ} (ht : s'.time = s.time) (hc : s'.cps = s.cps)
    (hl : s.cps.length = ss.length) (hz : PanelSites s.cps θ) {a : List String} (ha : a ∈ ss) (t : τ) :
    panelTrendAt days s' ss θ' a t = ε * panelTrendAt days s ss θ a t + α a := by
  have hi : ss.idxOf a < ss.length := List.idxOf_lt_length_of_mem ha
  have ho : ss.idxOf a < (θ "offset").data.length := by rw [hz.1, hl]; exact hi
  have h1 : (θ' "offset").data.getD (ss.idxOf a) 0 = ε * (θ "offset").data.getD (ss.idxOf a) 0 + α a := by
    rw [hθ.offset]
    simp only [List.getD_eq_getElem?_getD, List.getElem?_zipWith]
    rw [List.getElem?_eq_getElem ho, List.getElem?_eq_getElem hi]
    simp
  have h2 : (seriesCoefs s.cps θ').getD (ss.idxOf a) [] = ((seriesCoefs s.cps θ).getD (ss.idxOf a) []).map (ε * ·) := by
    unfold seriesCoefs
    rw [hθ.changepoints, splitLengths_map]
    simp only [List.getD_eq_getElem?_getD, List.getElem?_map]
    cases ((s.cps.map List.length).splitLengths (θ "changepoint_coefficients").data)[ss.idxOf a]? <;> simp
  have h3 : ∀ (cs bs : List ℝ) (x : ℝ), (List.zipWith (fun c b => b * rampEntry x c) cs (bs.map (ε * ·))).sum
      = ε * (List.zipWith (fun c b => b * rampEntry x c) cs bs).sum := by
    intro cs
    induction cs with
    | nil => simp
    | cons c cs ih =>
      intro bs x
      cases bs with
      | nil => simp
      | cons b bs =>
        simp only [List.map_cons, List.zipWith_cons_cons, List.sum_cons, ih]
        ring
  unfold panelTrendAt trendAt
  rw [hc, ht, h1, h2, h3]
  ring

/-- The mean of a series from the names and columns of the effects. -/
noncomputable def meanOf (mode : String → String) (lc : List (String × List String)) (val : String → ℝ) (θ : SiteEnv ℝ)
    (T : ℝ) : ℝ :=
  T + (lc.map fun q => combine (mode q.1) T (Tensor.dot (q.2.map val) (θ (q.1 ++ "/coefs")).data)).sum

theorem meanOf_moved {ε : ℝ} {α : List String → ℝ} {ss : List (List String)} {θ θ' : SiteEnv ℝ}
    (hθ : MovedPanel ε α mode ss θ θ') {β : ℝ} (hβ : (∀ n, mode n = "additive") ∨ β = 0)
    (lc : List (String × List String)) (val : String → ℝ) (T : ℝ) :
    meanOf mode lc val θ' (ε * T + β) = ε * meanOf mode lc val θ T + β := by
  unfold meanOf
  have : (lc.map fun q => combine (mode q.1) (ε * T + β) (Tensor.dot (q.2.map val) (θ' (q.1 ++ "/coefs")).data))
      = lc.map fun q => ε * combine (mode q.1) T (Tensor.dot (q.2.map val) (θ (q.1 ++ "/coefs")).data) := by
    refine List.map_congr_left fun q _ => ?_
    rw [hθ.coefs]
    unfold combine
    by_cases hm : mode q.1 = "additive"
    · simp only [if_pos hm]
      rw [dot_map_mul]
    · simp only [if_neg hm]
      rcases hβ with h | h
      · exact absurd (h _) hm
      · rw [h]
        ring
  rw [this, List.sum_map_mul_left]
  ring

theorem panelMean_eq {S Y Sc D : Type} {s : PiecewiseState ℝ τ} {ss : List (List String)}
    {l : List (FittedEffect S Y Sc τ ℝ D ℝ)} {x : Frame String τ ℝ} {θ : SiteEnv ℝ} {a : List String} {t : τ} :
    panelMean days mode s ss l x θ a t
      = meanOf mode (l.map nameCols) (cellAt x a t) θ (panelTrendAt days s ss θ a t) := by
  unfold panelMean meanOf
  rw [List.map_map]
  rfl

/-- The density of a normal distribution only depends on the distances from the mean, up to a common sign. -/
theorem normalDensity_moved {n : Nat} {ε : ℝ} (hε : ε = 1 ∨ ε = -1) (μ x β : Fin n → ℝ) (C : Matrix (Fin n) (Fin n) ℝ) :
    normalDensity (fun i => ε * μ i + β i) C (fun i => ε * x i + β i) = normalDensity μ C x := by
  have h : (fun i => ε * x i + β i) - (fun i => ε * μ i + β i) = ε • (x - μ) := by
    funext i
    simp only [Pi.sub_apply, Pi.smul_apply, smul_eq_mul]
    ring
  unfold normalDensity
  rw [h, mulVec_smul, dotProduct_smul, smul_dotProduct]
  simp only [smul_eq_mul]
  rcases hε with rfl | rfl <;> ring

theorem hierExog_given {y y' : Frame String τ ℝ} {X : Option (Frame String τ ℝ)} (h : givenCols X ≠ []) :
    hierExog cfg (aggregate cfg.keep y') X = hierExog cfg (aggregate cfg.keep y) X := by
  cases X with
  | none => exact absurd rfl h
  | some X0 =>
    unfold hierExog exogOr
    simp only [if_neg (show X0.cols ≠ [] from h)]

/-- What fits of a panel and of the moved panel have in common. -/
theorem hier_moved (hV : ValidHier days p cfg) {ε : ℝ} {α : List String → ℝ} {ss : List (List String)} {ts : List τ}
    {y y' : Frame String τ ℝ} {c c' : String} {obs obs' : List String → τ → ℝ}
    (H : MovedHistory ε α ss ts y y' c c' obs obs') {X : Option (Frame String τ ℝ)} (hX : GivenExog X ss ts)
    (hcomp : ∀ c ∈ givenCols X, c ∉ cfg.shared → ∃ q, cfg.compile c = .ok q)
    {m m' : HierFit (Option (PiecewiseState ℝ τ)) (Scale ℝ) τ (Tensor ℝ) ℝ} (hfit : hierFitData cfg y X = .ok m)
    (hfit' : hierFitData cfg y' X = .ok m') :
    ∃ x x' s s', HierFitted days p ss ts X m x s ∧ HierFitted days p ss ts X m' x' s' ∧
      hierExog cfg (aggregate cfg.keep y) X = .ok (m.expand, x) ∧ hierExog cfg (aggregate cfg.keep y') X = .ok (m'.expand, x') ∧
      s'.time = s.time ∧ s'.cps = s.cps ∧ s'.priorLoc = s.priorLoc ∧ s'.priorScale = s.priorScale ∧
      (s.offsetLoc.length = ss.length → s'.offsetLoc.length = ss.length →
        s'.offsetLoc = List.zipWith (fun o a => ε * o + α a) s.offsetLoc ss) ∧
      (kept m'.fitted).map nameCols = (kept m.fitted).map nameCols ∧
      ((kept m.fitted).map nameCols = [] ∨ x' = x) ∧ ∀ v ∈ s.priorLoc, v = 0 := by
  obtain ⟨x, x', s, s', h, h', hex, hex', htime, hcps, hloc, hscale, hoff, hkept⟩ :=
    hier_same hV H.panel H.panel' H.column H.column' H.observed H.observed' H.series H.series' H.dates H.dates'
      hX hX rfl hcomp hfit hfit'
  refine ⟨x, x', s, s', h, h', hex, hex', htime, hcps, hloc, hscale, ?_, hkept, ?_, ?_⟩
  · intro hl hl'
    refine List.ext_getElem? fun i => ?_
    rw [List.getElem?_zipWith]
    by_cases hi : i < ss.length
    · have ha : ss[i]? = some ss[i] := List.getElem?_eq_getElem hi
      rw [hoff i _ ε (α ss[i]) ha (H.moved _ (List.getElem_mem hi)), ha,
        List.getElem?_eq_getElem (show i < s.offsetLoc.length by omega)]
      rfl
    · rw [List.getElem?_eq_none (by omega), List.getElem?_eq_none (show ss.length ≤ i by omega)]
      cases s.offsetLoc[i]? <;> rfl
  · by_cases hg : givenCols X = []
    · left
      rw [List.map_eq_nil_iff]
      refine List.eq_nil_iff_forall_not_mem.2 fun fe hfe => ?_
      obtain ⟨h1, h2⟩ := (hier_kept h).1 hfe
      obtain ⟨q, hq⟩ := List.exists_mem_of_ne_nil _ h2
      have hx := (h.linear fe h1).2.2 q hq
      rcases h.exog with ⟨-, -, h0⟩ | ⟨X0, st, rfl, hr, -⟩
      · rw [h0] at hx
        cases hx
      · exact hr.columns hg
    · right
      rw [hierExog_given hg, hex] at hex'
      exact (congrArg Prod.snd (Except.ok.inj hex')).symm
  · obtain ⟨m₁, x₁, s₁, hf₁, h₁, yB, -, -, -, -, -, -, hpf, -⟩ := hier_fits hV H.panel H.series H.dates hX hcomp
    rw [hfit] at hf₁
    cases hf₁
    obtain rfl : s = s₁ := Option.some.inj (h.state.symm.trans h₁.state)
    obtain ⟨tt, cps, yd, ya, r, k1, k2, k3, k4, k5, rfl⟩ := piecewiseFit_inv hpf
    exact priorVectors_zero (ps := p.priorScale)

theorem zipWith_moved_sum {ε os : ℝ} (hε : ε = 1 ∨ ε = -1) {α : List String → ℝ} : ∀ (l o : List ℝ) (ss : List (List String)),
    l.length = ss.length → o.length = ss.length →
    (List.zipWith (fun μ o => normalLP μ os o) (List.zipWith (fun o a => ε * o + α a) l ss)
      (List.zipWith (fun o a => ε * o + α a) o ss)).sum = (List.zipWith (fun μ o => normalLP μ os o) l o).sum
  | [], [], _, _, _ => by simp
  | [], _ :: _, ss, h, h' => by simp at h h'; omega
  | _ :: _, [], ss, h, h' => by simp at h h'; omega
  | a :: l, b :: o, [], h, _ => by simp at h
  | a :: l, b :: o, u :: ss, h, h' => by
    simp only [List.zipWith_cons_cons, List.sum_cons]
    rw [zipWith_moved_sum hε l o ss (by simpa using h) (by simpa using h')]
    congr 1
    unfold normalLP
    rcases hε with rfl | rfl <;> ring

/-- **C120**: the posterior density of the moved parameters in the model of the moved panel is that of the
parameters in the model of the panel.  For `ε = -1` the priors of additive effects must be symmetric, and if
there are multiplicative effects, the series must not be raised. -/
theorem C120_posterior (hV : ValidHier days p cfg) (hM : Modes mode cfg) {ε : ℝ} (hε : ε = 1 ∨ ε = -1)
    {α : List String → ℝ} {ss : List (List String)} (h2 : 2 ≤ ss.length) {ts : List τ}
    {y y' : Frame String τ ℝ} {c c' : String} {obs obs' : List String → τ → ℝ}
    (H : MovedHistory ε α ss ts y y' c c' obs obs') (hα : (∀ n, mode n = "additive") ∨ ∀ a ∈ ss, α a = 0)
    (hp : p.priorScale.Fits ss.length) {X : Option (Frame String τ ℝ)} (hX : GivenExog X ss ts)
    (hcomp : ∀ c ∈ givenCols X, c ∉ cfg.shared → ∃ q, cfg.compile c = .ok q)
    {m m' : HierFit (Option (PiecewiseState ℝ τ)) (Scale ℝ) τ (Tensor ℝ) ℝ} (hfit : hierFitData cfg y X = .ok m)
    (hfit' : hierFitData cfg y' X = .ok m') :
    ∃ s s', m.trend.st.2 = some s ∧ m'.trend.st.2 = some s' ∧
      ∀ (lkj : Nat → ℝ → Tensor ℝ → ℝ) (ns conc os : ℝ) (prior : String → ℝ → ℝ),
        (∀ n, mode n = "additive" → ∀ v, prior n (ε * v) = prior n v) →
        ∀ (θ θ' : SiteEnv ℝ), MovedPanel ε α mode ss θ θ' →
        (HierSizes s m θ → HierSizes s' m' θ') ∧
        ∀ (σ : Fin ss.length → ℝ) (C : Matrix (Fin ss.length) (Fin ss.length) ℝ), HierSizes s m θ →
        (θ "std_observation").data.length = ss.length → VectorSite (θ "std_observation") σ → (∀ i, 0 < σ i) →
        MatrixSite (θ "corr_matrix") C → CorrFactor C →
        hierDensity lkj ns conc os prior m' θ' = hierDensity lkj ns conc os prior m θ := by
  obtain ⟨x, x', s, s', h, h', hex, hex', htime, hcps, hloc, hscale, hoff, hkept, hxx, hzero⟩ :=
    hier_moved hV H hX hcomp hfit hfit'
  obtain ⟨x₁, s₁, hex₁, h₁, ho, hlu, hF⟩ := hier_posterior hV hM H.panel H.column H.observed H.series h2 H.dates
    hp hX hcomp hfit
  obtain ⟨x₂, s₂, hex₂, h₂, ho', hlu', hF'⟩ := hier_posterior hV hM H.panel' H.column' H.observed' H.series' h2
    H.dates' hp hX hcomp hfit'
  rw [hex] at hex₁
  obtain rfl : x = x₁ := congrArg Prod.snd (Except.ok.inj hex₁)
  rw [hex'] at hex₂
  obtain rfl : x' = x₂ := congrArg Prod.snd (Except.ok.inj hex₂)
  obtain rfl : s = s₁ := Option.some.inj (h.state.symm.trans h₁.state)
  obtain rfl : s' = s₂ := Option.some.inj (h'.state.symm.trans h₂.state)
  refine ⟨s, s', h.state, h'.state, ?_⟩
  intro lkj ns conc os prior hprior θ θ' hθ
  have hsz : HierSizes s m θ → HierSizes s' m' θ' := by
    intro hz
    refine ⟨⟨?_, ?_⟩, ?_⟩
    · rw [hcps, hθ.offset, List.length_zipWith, hz.trend.1, h.changepoints, Nat.min_self]
    · rw [hcps, hθ.changepoints, List.length_map, hz.trend.2]
    · intro fe hfe hne
      have hk : nameCols fe ∈ (kept m.fitted).map nameCols := by
        rw [← hkept]
        exact List.mem_map_of_mem ((hier_kept h').2 ⟨hfe, hne⟩)
      obtain ⟨fe₀, hfe₀, he⟩ := List.mem_map.1 hk
      obtain ⟨q1, q2⟩ := (hier_kept h).1 hfe₀
      have e1 : fe₀.name = fe.name := congrArg Prod.fst he
      have e2 : fe₀.cols = fe.cols := congrArg Prod.snd he
      have := hz.coefs fe₀ q1 q2
      rw [e1, e2] at this
      rw [hθ.coefs]
      split
      · rw [List.length_map, this]
      · exact this
  refine ⟨hsz, ?_⟩
  intro σ C hz hsl hσs hσ hCs hC
  rw [hF lkj ns conc os prior θ σ C hz hsl hσs hσ hCs hC,
    hF' lkj ns conc os prior θ' σ C (hsz hz) (by rw [hθ.std]; exact hsl) (by rw [hθ.std]; exact hσs) hσ
      (by rw [hθ.corr]; exact hCs) hC]
  congr 1
  have hol : (θ "offset").data.length = ss.length := hz.trend.1.trans h.changepoints
  have e1 : hierPrior os prior s' (kept m'.fitted) θ' = hierPrior os prior s (kept m.fitted) θ := by
    unfold hierPrior
    rw [hoff ho ho', hθ.offset, zipWith_moved_sum hε _ _ _ ho hol, hloc, hscale, hθ.changepoints]
    have hz0 : ∀ q ∈ s.priorLoc.zip s.priorScale, q.1 = 0 := fun q hq => hzero _ (List.of_mem_zip hq).1
    have hlap : ∀ (l : List (ℝ × ℝ)) (d : List ℝ), (∀ q ∈ l, q.1 = 0) →
        (List.zipWith (fun (q : ℝ × ℝ) δ => laplaceLP q.1 q.2 δ) l (d.map (ε * ·))).sum
          = (List.zipWith (fun (q : ℝ × ℝ) δ => laplaceLP q.1 q.2 δ) l d).sum := by
      intro l
      induction l with
      | nil => simp
      | cons q l ih =>
        intro d hq
        cases d with
        | nil => simp
        | cons v d =>
          simp only [List.map_cons, List.zipWith_cons_cons, List.sum_cons]
          rw [ih d fun q hq' => hq q (by simp [hq']), hq q (by simp)]
          congr 1
          unfold laplaceLP
          rcases hε with rfl | rfl <;> simp
    rw [hlap _ _ hz0]
    congr 1
    have key : ∀ (l : List (FittedEffect (Option (PiecewiseState ℝ τ)) (Frame String τ ℝ) (Scale ℝ) τ ℝ (Tensor ℝ) ℝ))
        (θ : SiteEnv ℝ), (l.map fun fe => ((θ (fe.name ++ "/coefs")).data.map (prior fe.name)).sum).sum
          = ((l.map nameCols).map fun q => ((θ (q.1 ++ "/coefs")).data.map (prior q.1)).sum).sum := by
      intro l θ
      rw [List.map_map]
      rfl
    rw [key, key, hkept]
    congr 1
    refine List.map_congr_left fun q _ => ?_
    rw [hθ.coefs]
    split
    · rename_i ha
      rw [List.map_map]
      congr 1
      exact List.map_congr_left fun v _ => hprior _ ha v
    · rfl
  have e2 : noisePart lkj ns conc ss.length θ' = noisePart lkj ns conc ss.length θ := by
    unfold noisePart
    rw [hθ.std, hθ.corr]
  have e3 : hierLik days mode s' ss ts (kept m'.fitted) x' obs' σ C θ'
      = hierLik days mode s ss ts (kept m.fitted) x obs σ C θ := by
    unfold hierLik
    congr 1
    refine List.map_congr_left fun t ht => ?_
    rw [← normalDensity_moved hε (fun i => panelMean days mode s ss (kept m.fitted) x θ (ss.get i) t)
      (fun i => obs (ss.get i) t) (fun i => α (ss.get i))]
    congr 1
    · funext i
      have ha : ss.get i ∈ ss := List.get_mem _ _
      rw [panelMean_eq, panelMean_eq, panelTrend_moved hθ htime hcps h.changepoints hz.trend ha, hkept,
        ← meanOf_moved hθ (hα.imp id fun h => h _ ha)]
      rcases hxx with h0 | h0
      · rw [h0]
        rfl
      · rw [h0]
    · funext i
      exact H.moved _ (List.get_mem _ _) t ht
  rw [e1, e2, e3]

/-- **C120**: the forecasts of the moved parameters are the moved forecasts, for all series, dates and future
values of the regressors. -/
theorem C120_forecast (hV : ValidHier days p cfg) (hM : Modes mode cfg) {ε : ℝ}
    {α : List String → ℝ} {ss : List (List String)} (h2 : 2 ≤ ss.length) {ts : List τ}
    {y y' : Frame String τ ℝ} {c c' : String} {obs obs' : List String → τ → ℝ}
    (H : MovedHistory ε α ss ts y y' c c' obs obs') (hα : (∀ n, mode n = "additive") ∨ ∀ a ∈ ss, α a = 0)
    {X : Option (Frame String τ ℝ)} (hX : GivenExog X ss ts) (hn : PlainNames cfg.compile (givenCols X) cfg.shared ss)
    {m m' : HierFit (Option (PiecewiseState ℝ τ)) (Scale ℝ) τ (Tensor ℝ) ℝ} (hfit : hierFitData cfg y X = .ok m)
    (hfit' : hierFitData cfg y' X = .ok m') {θ θ' : SiteEnv ℝ} (hθ : MovedPanel ε α mode ss θ θ') :
    ∃ s, m.trend.st.2 = some s ∧ (HierSizes s m θ →
      ∀ (y₁ y₁' : Frame String τ ℝ) (levels levels' : List (List String)) (X₁ : Option (Frame String τ ℝ))
        (fh : List τ), fh.Pairwise (· < ·) → GivenExog X₁ ss fh → (∀ d ∈ givenCols X, d ∈ givenCols X₁) →
      ∀ td data td' data', hierPredictData cfg m levels y₁ X₁ fh = .ok (td, data) →
        hierPredictData cfg m' levels' y₁' X₁ fh = .ok (td', data') →
      ∀ st st', computeMean (m.trend.cls.call m.trend.st) td data (callsOf m.objs) θ = .ok st →
        computeMean (m'.trend.cls.call m'.trend.st) td' data' (callsOf m'.objs) θ' = .ok st' →
      ∀ (i j : Nat) (a : List String) (t : τ), ss[i]? = some a → fh[j]? = some t →
        ∃ v, st.mean.get? [i, j, 0] = some v ∧ st'.mean.get? [i, j, 0] = some (ε * v + α a)) := by
  obtain ⟨x, x', s, s', h, h', -, -, htime, hcps, -, -, -, hkept, -, -⟩ :=
    hier_moved hV H hX hn.compiles hfit hfit'
  refine ⟨s, h.state, ?_⟩
  intro hz y₁ y₁' levels levels' X₁ fh hinc hX₁ hsub td data td' data' hp hp' st st' hst hst' i j a t hi hj
  obtain ⟨s₂, hs₂, hmc, hF⟩ := C115_closed_form hV hM H.panel H.series (.inl (by omega)) H.dates hX hn hfit
  obtain ⟨s₂', hs₂', -, hF'⟩ := C115_closed_form hV hM H.panel' H.series' (.inl (by omega)) H.dates' hX hn hfit'
  rw [h.state] at hs₂
  cases hs₂
  rw [h'.state] at hs₂'
  cases hs₂'
  obtain ⟨val, hv, hm⟩ := hF y₁ levels X₁ fh hinc hX₁ hsub td data hp
  obtain ⟨val', hv', hm'⟩ := hF' y₁' levels' X₁ fh hinc hX₁ hsub td' data' hp'
  have ha : a ∈ ss := List.mem_of_getElem? hi
  have ht : t ∈ fh := List.mem_of_getElem? hj
  have hz' : PanelSites s'.cps θ' := by
    refine ⟨?_, ?_⟩
    · rw [hcps, hθ.offset, List.length_zipWith, hz.trend.1, h.changepoints, Nat.min_self]
    · rw [hcps, hθ.changepoints, List.length_map, hz.trend.2]
  have key : ∀ (l : List (FittedEffect (Option (PiecewiseState ℝ τ)) (Frame String τ ℝ) (Scale ℝ) τ ℝ (Tensor ℝ) ℝ))
      (val : String → ℝ) (θ : SiteEnv ℝ) (T : ℝ), T + (l.map fun fe => combine (mode fe.name) T
        (Tensor.dot (fe.cols.map val) (θ (fe.name ++ "/coefs")).data)).sum = meanOf mode (l.map nameCols) val θ T := by
    intro l val θ T
    unfold meanOf
    rw [List.map_map]
    rfl
  refine ⟨_, hm θ st hz.trend hst i j a t hi hj, ?_⟩
  rw [hm' θ' st' hz' hst' i j a t hi hj, key, key, hkept,
    panelTrend_moved hθ htime hcps h.changepoints hz.trend ha, ← meanOf_moved hθ (hα.imp id fun h => h _ ha)]
  congr 1
  unfold meanOf
  congr 2
  refine List.map_congr_left fun q hq => ?_
  obtain ⟨fe, hfe, rfl⟩ := List.mem_map.1 hq
  congr 2
  refine List.map_congr_left fun n hnq => ?_
  have o := hv a ha t ht
  have o' := hv' a ha t ht
  rcases hmc fe ((hier_kept h).1 hfe).1 n hnq with ⟨q1, q2⟩ | ⟨d, hd, hns, u, hu, rfl⟩
  · rw [o.shared n q1 q2, o'.shared n q1 q2]
  · by_cases hua : u = a
    · rw [hua, o.own d hd hns, o'.own d hd hns]
    · rw [o.other d hd hns u hu hua, o'.other d hd hns u hu hua]

/-! ## Best fits -/

open Classical in
/-- The moved parameters. -/
noncomputable def movePanel (ε : ℝ) (α : List String → ℝ) (mode : String → String) (ss : List (List String))
    (θ : SiteEnv ℝ) : SiteEnv ℝ := fun k =>
  if k = "offset" then ⟨(θ k).shape, List.zipWith (fun o a => ε * o + α a) (θ k).data ss⟩
  else if k = "changepoint_coefficients" ∨ ∃ n, k = n ++ "/coefs" ∧ mode n = "additive" then (θ k).map (ε * ·)
  else θ k

theorem coefs_ne {n s : String} (h : '/' ∉ s.toList) : n ++ "/coefs" ≠ s := by
  intro h'
  apply h
  rw [← h']
  simp

theorem coefs_inj {n n' : String} (h : n ++ "/coefs" = n' ++ "/coefs") : n = n' := by
  have := congrArg String.toList h
  simp only [String.toList_append] at this
  exact String.toList_inj.1 (List.append_cancel_right this)

theorem movePanel_moved (ε : ℝ) (α : List String → ℝ) (mode : String → String) (ss : List (List String))
    (θ : SiteEnv ℝ) : MovedPanel ε α mode ss θ (movePanel ε α mode ss θ) where
  offset := by simp [movePanel]
  changepoints := by
    unfold movePanel
    rw [if_neg (by decide), if_pos (.inl rfl)]
    rfl
  coefs := by
    intro n
    unfold movePanel
    rw [if_neg (coefs_ne (by decide))]
    by_cases hn : mode n = "additive"
    · rw [if_pos (.inr ⟨n, rfl, hn⟩), if_pos hn]
      rfl
    · rw [if_neg, if_neg hn]
      rintro (h | ⟨n', h1, h2⟩)
      · exact coefs_ne (by decide) h
      · rw [coefs_inj h1] at hn
        exact hn h2
  std := by
    unfold movePanel
    rw [if_neg (by decide), if_neg]
    rintro (h | ⟨n, h, -⟩)
    · exact absurd h (by decide)
    · exact coefs_ne (by decide) h.symm
  corr := by
    unfold movePanel
    rw [if_neg (by decide), if_neg]
    rintro (h | ⟨n, h, -⟩)
    · exact absurd h (by decide)
    · exact coefs_ne (by decide) h.symm

theorem movedPanel_symm {ε : ℝ} (hε : ε = 1 ∨ ε = -1) {α : List String → ℝ} {ss : List (List String)} {θ θ' : SiteEnv ℝ}
    (hl : (θ "offset").data.length = ss.length) (h : MovedPanel ε α mode ss θ θ') :
    MovedPanel ε (fun a => -(ε * α a)) mode ss θ' θ where
  offset := by
    rw [h.offset]
    have key : ∀ (l : List ℝ) (ss : List (List String)), l.length = ss.length →
        l = List.zipWith (fun o a => ε * o + -(ε * α a)) (List.zipWith (fun o a => ε * o + α a) l ss) ss := by
      intro l
      induction l with
      | nil => simp
      | cons b l ih =>
        intro ss hl
        cases ss with
        | nil => simp at hl
        | cons u ss =>
          simp only [List.zipWith_cons_cons]
          rw [← ih ss (by simpa using hl)]
          congr 1
          rcases hε with rfl | rfl <;> ring
    exact key _ _ hl
  changepoints := by
    rw [h.changepoints, List.map_map]
    rcases hε with rfl | rfl <;> simp [Function.comp_def]
  coefs := by
    intro n
    rw [h.coefs n]
    split
    · rw [List.map_map]
      rcases hε with rfl | rfl <;> simp [Function.comp_def]
    · rfl
  std := h.std.symm
  corr := h.corr.symm

theorem MovedHistory.symm {ε : ℝ} (hε : ε = 1 ∨ ε = -1) {α : List String → ℝ} {ss : List (List String)} {ts : List τ}
    {y y' : Frame String τ ℝ} {c c' : String} {obs obs' : List String → τ → ℝ}
    (H : MovedHistory ε α ss ts y y' c c' obs obs') :
    MovedHistory ε (fun a => -(ε * α a)) ss ts y' y c' c obs' obs where
  panel := H.panel'
  panel' := H.panel
  column := H.column'
  column' := H.column
  observed := H.observed'
  observed' := H.observed
  series := H.series'
  series' := H.series
  dates := H.dates'
  dates' := H.dates
  moved := by
    intro a ha t ht
    rw [H.moved a ha t ht]
    rcases hε with rfl | rfl <;> ring

/-- **C120**: the best fits of the moved panel are the moved best fits of the panel. -/
theorem C120_best (hV : ValidHier days p cfg) (hM : Modes mode cfg) {ε : ℝ} (hε : ε = 1 ∨ ε = -1)
    {α : List String → ℝ} {ss : List (List String)} (h2 : 2 ≤ ss.length) {ts : List τ}
    {y y' : Frame String τ ℝ} {c c' : String} {obs obs' : List String → τ → ℝ}
    (H : MovedHistory ε α ss ts y y' c c' obs obs') (hα : (∀ n, mode n = "additive") ∨ ∀ a ∈ ss, α a = 0)
    (hp : p.priorScale.Fits ss.length) {X : Option (Frame String τ ℝ)} (hX : GivenExog X ss ts)
    (hcomp : ∀ c ∈ givenCols X, c ∉ cfg.shared → ∃ q, cfg.compile c = .ok q)
    {m m' : HierFit (Option (PiecewiseState ℝ τ)) (Scale ℝ) τ (Tensor ℝ) ℝ} (hfit : hierFitData cfg y X = .ok m)
    (hfit' : hierFitData cfg y' X = .ok m') :
    ∃ s s', m.trend.st.2 = some s ∧ m'.trend.st.2 = some s' ∧
      ∀ (lkj : Nat → ℝ → Tensor ℝ → ℝ) (ns conc os : ℝ) (prior : String → ℝ → ℝ),
        (∀ n, mode n = "additive" → ∀ v, prior n (ε * v) = prior n v) →
        ∀ (θ : SiteEnv ℝ) (σ : Fin ss.length → ℝ) (C : Matrix (Fin ss.length) (Fin ss.length) ℝ),
        (θ "std_observation").data.length = ss.length → VectorSite (θ "std_observation") σ → (∀ i, 0 < σ i) →
        MatrixSite (θ "corr_matrix") C → CorrFactor C → BestPanel lkj ns conc os prior s m θ →
        (∃ θ', MovedPanel ε α mode ss θ θ') ∧
        ∀ θ', MovedPanel ε α mode ss θ θ' → BestPanel lkj ns conc os prior s' m' θ' := by
  obtain ⟨s, s', hs, hs', hd⟩ := C120_posterior hV hM hε h2 H hα hp hX hcomp hfit hfit'
  obtain ⟨r', r, hr', hr, hd'⟩ := C120_posterior hV hM hε h2 (H.symm hε)
    (hα.imp id fun h a ha => by rw [h a ha]; simp) hp hX hcomp hfit' hfit
  obtain rfl : s = r := Option.some.inj (hs.symm.trans hr)
  obtain rfl : s' = r' := Option.some.inj (hs'.symm.trans hr')
  refine ⟨s, s', hs, hs', ?_⟩
  intro lkj ns conc os prior hpr θ σ C hsl hσs hσ hCs hC hbest
  refine ⟨⟨_, movePanel_moved ε α mode ss θ⟩, ?_⟩
  intro θ' hθ
  obtain ⟨hz, l, hl, hmax⟩ := hbest
  obtain ⟨k1, k2⟩ := hd lkj ns conc os prior hpr θ θ' hθ
  refine ⟨k1 hz, l, by rw [k2 σ C hz hsl hσs hσ hCs hC]; exact hl, ?_⟩
  intro θ₂' l₂ hz₂ hstd hcorr hl₂
  obtain ⟨q1, q2⟩ := hd' lkj ns conc os prior hpr θ₂' _ (movePanel_moved ε (fun a => -(ε * α a)) mode ss θ₂')
  have mv := movePanel_moved ε (fun a => -(ε * α a)) mode ss θ₂'
  have e1 : θ₂' "std_observation" = θ "std_observation" := hstd.trans hθ.std
  have e2 : θ₂' "corr_matrix" = θ "corr_matrix" := hcorr.trans hθ.corr
  refine hmax _ l₂ (q1 hz₂) (mv.std.trans e1) (mv.corr.trans e2) ?_
  rw [q2 σ C hz₂ (by rw [e1]; exact hsl) (by rw [e1]; exact hσs) hσ (by rw [e2]; exact hCs) hC]
  exact hl₂

end
/-! ## A case -/

/-- The panel `exY113` turned upside down, with series `p` raised by 10. -/
noncomputable def exY120 : Frame String ℤ ℝ :=
  ⟨2, ["y"], [("p", 0, 9), ("p", 1, 7), ("q", 0, -7), ("q", 1, -8)].map fun r => ⟨[r.1], r.2.1, fun _ => r.2.2⟩⟩

theorem exPanel120 : RegularPanel exY120 where
  wf := by
    intro r hr
    simp only [exY120, List.map_cons, List.map_nil, List.mem_cons, List.not_mem_nil, or_false] at hr
    rcases hr with rfl | rfl | rfl | rfl <;> rfl
  levels := by decide
  column := ⟨"y", rfl⟩
  ordered := by
    unfold TimeSorted exY120
    simp
  regular := by
    intro r hr r' hr'
    simp only [exY120, List.map_cons, List.map_nil, List.mem_cons, List.not_mem_nil, or_false] at hr hr'
    rcases hr with rfl | rfl | rfl | rfl <;> rcases hr' with rfl | rfl | rfl | rfl <;> simp [exY120]
  bottom := ⟨⟨["p"], 0, fun _ => 9⟩, by simp [exY120], by simp⟩
  twoDates := ⟨⟨["p"], 0, fun _ => 9⟩, by simp [exY120], ⟨["p"], 1, fun _ => 7⟩, by simp [exY120], by simp⟩

theorem exMoved120 : MovedHistory (-1) (fun a => if a = ["p"] then 10 else 0) [["p"], ["q"]] [0, 1] exY113 exY120
    "y" "y" (fun a t => cellAt exY113 a t "y") (fun a t => cellAt exY120 a t "y") where
  panel := exPanel113
  panel' := exPanel120
  column := rfl
  column' := rfl
  observed := fun r hr _ => cellAt_of_mem exPanel113.ordered hr (by simp [exY113])
  observed' := fun r hr _ => cellAt_of_mem exPanel120.ordered hr (by simp [exY120])
  series := exSeries113
  series' :=
    { sorted := exSeries113.sorted
      mem := by
        intro s
        simp only [exY120, List.map_cons, List.map_nil, List.mem_cons, List.not_mem_nil, or_false,
          exists_eq_or_imp, exists_eq_left]
        constructor
        · rintro (rfl | rfl) <;> simp
        · rintro ⟨h, h' | h' | h' | h'⟩ <;> subst h' <;> simp }
  dates := exDates113
  dates' :=
    { sorted := by simp
      mem := by
        intro t
        simp only [exY120, List.map_cons, List.map_nil, List.mem_cons, List.not_mem_nil, or_false,
          exists_eq_or_imp, exists_eq_left]
        omega }
  moved := by
    intro a ha t ht
    simp only [List.mem_cons, List.not_mem_nil, or_false] at ha ht
    rcases ha with rfl | rfl <;> rcases ht with rfl | rfl <;> simp [cellAt, exY113, exY120] <;> norm_num

/-- The best fit of the moved panel has the moved offsets. -/
example : ∃ m m' s s' θ θ', hierFitData exCfg114 exY113 (some exX113) = .ok m ∧
    hierFitData exCfg114 exY120 (some exX113) = .ok m' ∧
    BestPanel (fun _ _ _ => 0) 1 1 (1 / 10) (fun _ => normalLP 0 1) s m θ ∧
    BestPanel (fun _ _ _ => 0) 1 1 (1 / 10) (fun _ => normalLP 0 1) s' m' θ' ∧
    ∃ o o', (θ "offset").data = [o, o'] ∧ (θ' "offset").data = [10 - o, -o'] := by
  have hX := exExog113 (ts := [0, 1]) (by simp) (by simp) (by simp)
  have k0 : MatrixSite ⟨[2, 2], [1, 0, 0, 1]⟩ (1 : Matrix (Fin 2) (Fin 2) ℝ) :=
    ⟨rfl, fun i j => by fin_cases i <;> fin_cases j <;> simp⟩
  have k1 : VectorSite (n := 2) ⟨[2], [1, 2]⟩ ![1, 2] := ⟨rfl, fun i => by fin_cases i <;> rfl⟩
  have k2 : ∀ i, (0 : ℝ) < ![1, 2] i := fun i => by fin_cases i <;> simp
  obtain ⟨m, s, h1, hs, h⟩ := C114_exists exValid114 exModes114 exPanel113 exSeries113 (by simp) exDates113
    (b := 1 / 10) rfl (by norm_num) hX exPlain115.compiles
  obtain ⟨m', h1'⟩ := C113_fits exValid114 exPanel120 exMoved120.series' exMoved120.dates' hX exPlain115.compiles
  obtain ⟨θ, h2, h3, h4⟩ := h (fun _ _ _ => 0) 1 1 (1 / 10) (fun _ => normalLP 0 1) (by norm_num)
    (fun _ => continuous_normalLP 0 1) (fun _ => tendsto_normalLP 0 one_ne_zero) ⟨[2], [1, 2]⟩
    ⟨[2, 2], [1, 0, 0, 1]⟩ ![1, 2] 1 rfl k1 k2 k0 corrFactor_one
  obtain ⟨s₁, s', hs₁, hs', hb⟩ := C120_best exValid114 exModes114 (.inr rfl) (by simp) exMoved120 (.inl fun _ => rfl)
    trivial hX exPlain115.compiles h1 h1'
  rw [hs] at hs₁
  cases hs₁
  obtain ⟨⟨θ', hθ⟩, hall⟩ := hb (fun _ _ _ => 0) 1 1 (1 / 10) (fun _ => normalLP 0 1)
    (fun _ _ v => by unfold normalLP; ring) θ ![1, 2] 1 (by rw [h2]; rfl) (by rw [h2]; exact k1) k2
    (by rw [h3]; exact k0) corrFactor_one h4
  refine ⟨m, m', s, s', θ, θ', h1, h1', h4, hall θ' hθ, ?_⟩
  obtain ⟨x, s₂, hF, -⟩ := C90_fitted exValid114 exModes114 exPanel113 rfl exMoved120.observed exSeries113 (by simp)
    exDates113 trivial hX exPlain115.compiles h1
  obtain rfl : s = s₂ := Option.some.inj (hs.symm.trans hF.state)
  have hl : (θ "offset").data.length = 2 := h4.1.trend.1.trans hF.changepoints
  obtain ⟨o, o', ho⟩ := List.length_eq_two.1 hl
  refine ⟨o, o', ho, ?_⟩
  rw [hθ.offset, ho]
  simp
  ring

end PV
