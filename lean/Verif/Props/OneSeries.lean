import Mathlib.Tactic.Linarith
import Verif.Model.MultivariateData
import Verif.Model.UnivariateData
import Verif.Props.UsualExamples
import Verif.Props.PanelPosterior

/-!
# C124: a hierarchical forecaster given one series is a univariate forecaster
-/

set_option linter.unusedSectionVars false

namespace PV
open Tensor

/-! ## Specification -/

section
variable {S Sc τ D K : Type}

/-- A hierarchical forecaster with the trend, effects, transformer and scale of a univariate one. -/
def UniConfig.asHier (cfg : UniConfig S Sc τ K D K) (order : List String → List String)
    (keep : List String → Bool) (shared : List String) : HierConfig S Sc τ D K where
  compile := cfg.compile
  order := order
  keep := keep
  trend := cfg.trend
  effects := cfg.effects
  default := cfg.default
  fitFeatures := cfg.fitFeatures
  features := cfg.features
  shared := shared
  scale := cfg.effectScale

/-- One ordinary series with distinct dates, `X` (if given) with the same dates and at least one
column, columns whose names are valid regular expressions, no feature transformer, and a trend that
is fitted to the target only. -/
structure OneSeries (cfg : UniConfig S Sc τ K D K) (y : Frame String τ K)
    (X : Option (Frame String τ K)) : Prop where
  flat : y.nlevels = 1
  column : ∃ c, y.cols = [c]
  plain : ∀ r ∈ y.rows, r.sid = []
  dates : y.times.Nodup
  continuous : cfg.discrete = false
  noFit : cfg.fitFeatures = .ok
  noTransform : cfg.features = .ok
  trend : ∀ s y X X' sc sc', cfg.trend.cls.fit s y X sc = cfg.trend.cls.fit s y X' sc'
  exog : ∀ x ∈ X, x.nlevels = 1 ∧ x.times = y.times ∧ x.cols ≠ []
  names : ∀ x ∈ X, ∀ c ∈ x.cols, ∃ p, cfg.compile c = .ok p

/-- The two fits lead to the same objects, the same data and the same observations. -/
structure SameFit (h : HierFit S Sc τ D K) (m : UniFit S Sc τ K D K) : Prop where
  trend : h.trend = m.trend
  fitted : h.fitted = m.fitted
  warnings : h.warnings = m.warnings
  trendData : h.trendData = m.trendData
  data : h.data = m.data
  objs : h.objs = m.objs
  target : h.yArray = ⟨[1, m.yArray.length, 1], m.yArray⟩
  single : h.single = true

/-- The same parameters, up to the name of the noise level. -/
def Renamed (φ θ : SiteEnv ℝ) : Prop :=
  φ "std_observation" = θ "noise_scale" ∧
    ∀ s, s ≠ "std_observation" → s ≠ "noise_scale" → φ s = θ s

/-- Something that does not read the noise level. -/
def IgnoresNoise {α : Type} (f : SiteEnv ℝ → α) : Prop :=
  ∀ θ φ, (∀ s, s ≠ "std_observation" → s ≠ "noise_scale" → φ s = θ s) → f φ = f θ

/-- Parameters that no other parameters beat, where the noise level (at the given site) is restricted
to admissible values, such as the positive ones. -/
def Unbeaten (density : SiteEnv ℝ → PyM ℝ) (noise : String) (N : ℝ → Prop) (θ : SiteEnv ℝ) (L : ℝ) :
    Prop :=
  N (siteScalar θ noise) ∧ density θ = .ok L ∧
    ∀ θ₂ L₂, N (siteScalar θ₂ noise) → density θ₂ = .ok L₂ → L₂ ≤ L

end

/-! ## Fitting -/

section
variable {S Sc τ D K : Type} [Field K] [LinearOrder K] [LinearOrder τ]

theorem filter_own {V : Type} : ∀ {rows : List (Row String τ V)}, (rows.map Row.time).Nodup →
    ∀ r ∈ rows, rows.filter (fun r' => decide (r'.time = r.time)) = [r]
  | [], _, r, hr => by cases hr
  | a :: rows, hn, r, hr => by
    rw [List.map_cons, List.nodup_cons] at hn
    rcases List.mem_cons.1 hr with rfl | hr
    · rw [List.filter_cons, if_pos (by simp), List.filter_eq_nil_iff.2]
      intro b hb
      simp only [decide_eq_true_eq]
      intro e
      exact hn.1 (e ▸ List.mem_map_of_mem hb)
    · rw [List.filter_cons, if_neg, filter_own hn.2 r hr]
      simp only [decide_eq_true_eq]
      intro e
      exact hn.1 (e ▸ List.mem_map_of_mem hr)

theorem locTimes_self {V : Type} {x : Frame String τ V} (hn : x.times.Nodup) : x.locTimes x.times = .ok x := by
  unfold Frame.locTimes
  rw [if_pos (by
    intro t ht
    obtain ⟨r, hr, e⟩ := List.mem_map.1 ht
    exact ⟨r, hr, e⟩)]
  have : (x.times.flatMap fun t => x.rows.filter fun r => decide (r.time = t)) = x.rows := by
    unfold Frame.times at hn ⊢
    rw [List.flatMap_map, List.flatMap_def, List.map_congr_left (g := fun r => [r])
      (fun r hr => filter_own hn r hr)]
    induction x.rows with
    | nil => rfl
    | cons r l ih => simpa using ih
  rw [this]

theorem compileAll_total {compile : String → PyM (String → Bool)} : ∀ {l : List String},
    (∀ c ∈ l, ∃ p, compile c = .ok p) → ∃ ms, compileAll compile l = .ok ms
  | [], _ => ⟨[], rfl⟩
  | c :: l, h => by
    obtain ⟨p, hp⟩ := h c (by simp)
    obtain ⟨ms, hms⟩ := compileAll_total (l := l) fun d hd => h d (by simp [hd])
    refine ⟨p :: ms, ?_⟩
    unfold compileAll
    rw [hp, hms]
    rfl

theorem nonShared_subset {cols shared : List String} {c : String} (h : c ∈ nonShared cols shared) :
    c ∈ cols := by
  unfold nonShared at h
  rw [List.mem_insertionSort, mem_unique] at h
  exact (List.mem_filter.1 h).1

variable {cfg : UniConfig S Sc τ K D K} {y : Frame String τ K} {X : Option (Frame String τ K)}
  {order : List String → List String} {keep : List String → Bool} {shared : List String}

theorem ofMultiIndex_flat (h : ∀ r ∈ y.rows, r.sid = []) :
    (Frame.ofMultiIndex 1 y.index : Frame String τ K) = Frame.ofIndex y.times := by
  unfold Frame.ofMultiIndex Frame.ofIndex Frame.index Frame.times
  simp only [List.map_map, Frame.mk.injEq, true_and]
  apply List.map_congr_left
  intro r hr
  simp [h r hr]

/-- The features both forecasters see in `fit`. -/
theorem one_exog (h : OneSeries cfg y X) :
    ∃ st, hierExog (cfg.asHier order keep shared) y X = .ok (st, X.getD (Frame.ofIndex y.times)) ∧
      ∀ s ∈ st, s.skip = true := by
  have h1 : exogOr X (Frame.ofMultiIndex y.nlevels y.index) = X.getD (Frame.ofIndex y.times) := by
    unfold exogOr
    cases X with
    | none => simpa [h.flat] using ofMultiIndex_flat h.plain
    | some x => simp [(h.exog x rfl).2.2]
  have h2 : (X.getD (Frame.ofIndex y.times)).nlevels = 1 := by
    cases X with
    | none => rfl
    | some x => exact (h.exog x rfl).1
  unfold hierExog
  rw [h1]
  unfold locBottom
  rw [if_pos h2]
  show ∃ st, ((cfg.asHier order keep shared).fitFeatures _ >>= _) = _ ∧ _
  rw [show (cfg.asHier order keep shared).fitFeatures = .ok from h.noFit]
  show ∃ st, fitExpand _ _ _ _ = _ ∧ _
  unfold fitExpand
  split
  · exact ⟨none, rfl, by simp⟩
  · rename_i hc
    obtain ⟨x, rfl⟩ : ∃ x, X = some x := by
      cases X with
      | none => exact absurd rfl hc
      | some x => exact ⟨x, rfl⟩
    obtain ⟨ms, hms⟩ := compileAll_total (compile := cfg.compile) (l := nonShared x.cols shared)
      fun c hc => h.names x rfl c (nonShared_subset hc)
    refine ⟨some ⟨x.nlevels == 1, order (x.cols.filter fun c => ms.any fun m => m c)⟩, ?_, ?_⟩
    · show (expandFit cfg.compile order (nonShared x.cols shared) x >>= _) = _
      unfold expandFit
      rw [hms]
      show (expandTransform _ _ >>= _) = _
      unfold expandTransform
      rw [if_pos (by simpa using (h.exog x rfl).1)]
      rfl
    · intro s hs
      cases hs
      simpa using (h.exog x rfl).1

theorem flatVals_length {c : String} (hc : y.cols = [c]) : (y.flatVals y.rows).length = y.rows.length := by
  unfold Frame.flatVals
  simp [hc]

theorem one_fit (h : OneSeries cfg y X) :
    uniFitData cfg y X = (do
      let n ← hierFitData (cfg.asHier order keep shared) y X
      pure { trend := n.trend, fitted := n.fitted, warnings := n.warnings, trendData := n.trendData,
             data := n.data, objs := n.objs, yArray := y.flatVals y.rows }) ∧
    ∀ n, hierFitData (cfg.asHier order keep shared) y X = .ok n →
      n.yArray = ⟨[1, (y.flatVals y.rows).length, 1], y.flatVals y.rows⟩ ∧
        n.single = true ∧ ∀ s ∈ n.expand, s.skip = true := by
  obtain ⟨st, hst, hskip⟩ := one_exog (order := order) (keep := keep) (shared := shared) h
  obtain ⟨c, hc⟩ := h.column
  have hagg : aggregate keep y = y := by
    unfold aggregate
    rw [if_pos h.flat]
  have hloc : locBottom y = .ok y := by
    unfold locBottom
    rw [if_pos h.flat]
  have harr : y.seriesToTensor = .ok ⟨[1, (y.flatVals y.rows).length, 1], y.flatVals y.rows⟩ := by
    unfold Frame.seriesToTensor
    rw [if_neg (by simp [hc]), if_pos h.flat, flatVals_length hc, hc]
    rfl
  have hx : (X.getD (Frame.ofIndex y.times)).locTimes y.times
      = .ok (X.getD (Frame.ofIndex y.times)) := by
    have ht : (X.getD (Frame.ofIndex y.times)).times = y.times := by
      cases X with
      | none => simp [Frame.ofIndex, Frame.times]
      | some x => exact (h.exog x rfl).2.1
    have := locTimes_self (x := X.getD (Frame.ofIndex y.times)) (by rw [ht]; exact h.dates)
    rwa [ht] at this
  have htr : cfg.trend.fit y X cfg.unitScale
      = cfg.trend.fit y (some (X.getD (Frame.ofIndex y.times))) cfg.effectScale := by
    unfold EffectObj.fit baseFit
    rw [h.trend _ _ X (some (X.getD (Frame.ofIndex y.times))) cfg.unitScale cfg.effectScale]
    cases X with
    | none => simp [Frame.ofIndex, Frame.isEmpty]
    | some x => rfl
  have key : ∀ a, hierFitData (cfg.asHier order keep shared) y X = a → uniFitData cfg y X = (do
      let n ← a
      pure { trend := n.trend, fitted := n.fitted, warnings := n.warnings, trendData := n.trendData,
             data := n.data, objs := n.objs, yArray := y.flatVals y.rows }) ∧
      ∀ n, a = .ok n → n.yArray = ⟨[1, (y.flatVals y.rows).length, 1], y.flatVals y.rows⟩ ∧
        n.single = true ∧ ∀ s ∈ n.expand, s.skip = true := by
    rintro _ rfl
    unfold uniFitData hierFitData
    rw [show (cfg.asHier order keep shared).keep = keep from rfl, hagg, hloc]
    simp only [h.continuous, h.noFit, Bind.bind, Except.bind, hx, harr, hst, htr, Bool.false_eq_true,
      if_false]
    rw [show (cfg.asHier order keep shared).trend = cfg.trend from rfl,
      show (cfg.asHier order keep shared).scale = cfg.effectScale from rfl,
      show (cfg.asHier order keep shared).compile = cfg.compile from rfl,
      show (cfg.asHier order keep shared).effects = cfg.effects from rfl,
      show (cfg.asHier order keep shared).default = cfg.default from rfl]
    cases cfg.trend.fit y (some (X.getD (Frame.ofIndex y.times))) cfg.effectScale with
    | error e => exact ⟨rfl, by intro n hn; cases hn⟩
    | ok tr =>
    dsimp only
    cases tr.transform (some (X.getD (Frame.ofIndex y.times))) (unique y.times) with
    | error e => exact ⟨rfl, by intro n hn; cases hn⟩
    | ok td =>
    dsimp only
    cases fitEffects cfg.compile cfg.effects cfg.default (some (X.getD (Frame.ofIndex y.times))) y
        cfg.effectScale with
    | error e => exact ⟨rfl, by intro n hn; cases hn⟩
    | ok fe =>
    dsimp only
    cases transformEffects fe.1 (X.getD (Frame.ofIndex y.times)) (unique y.times) with
    | error e => exact ⟨rfl, by intro n hn; cases hn⟩
    | ok da =>
    dsimp only
    cases nonSkipped fe.1 with
    | error e => exact ⟨rfl, by intro n hn; cases hn⟩
    | ok ob =>
    refine ⟨rfl, ?_⟩
    intro n hn
    cases hn
    exact ⟨rfl, by simp [nSeries, h.flat], hskip⟩
  exact key _ rfl

/-- **C124**, fitting: given one series, the hierarchical forecaster can be fitted exactly if the
univariate one can, and ends up with the same trend, effects, data and observations. -/
theorem C124_fit (h : OneSeries cfg y X) :
    (∀ m, uniFitData cfg y X = .ok m →
      ∃ n, hierFitData (cfg.asHier order keep shared) y X = .ok n ∧ SameFit n m) ∧
    (∀ n, hierFitData (cfg.asHier order keep shared) y X = .ok n →
      ∃ m, uniFitData cfg y X = .ok m ∧ SameFit n m) := by
  obtain ⟨k1, k2⟩ := one_fit (order := order) (keep := keep) (shared := shared) h
  constructor
  · intro m hm
    rw [hm] at k1
    cases ha : hierFitData (cfg.asHier order keep shared) y X with
    | error e => rw [ha] at k1; cases k1
    | ok n =>
      rw [ha] at k1
      cases k1
      obtain ⟨h1, h2, -⟩ := k2 n ha
      exact ⟨n, rfl, rfl, rfl, rfl, rfl, rfl, rfl, h1, h2⟩
  · intro n hn
    obtain ⟨h1, h2, -⟩ := k2 n hn
    rw [hn] at k1
    exact ⟨_, k1, rfl, rfl, rfl, rfl, rfl, rfl, h1, h2⟩

/-- **C124**, forecasting: the trend and the effects of both get the same data for every horizon. -/
theorem C124_predict (h : OneSeries cfg y X) {m : UniFit S Sc τ K D K} {n : HierFit S Sc τ D K}
    (hm : uniFitData cfg y X = .ok m)
    (hn : hierFitData (cfg.asHier order keep shared) y X = .ok n)
    (levels : List (List String)) (X' : Option (Frame String τ K)) (fh : List τ)
    (hX' : ∀ x ∈ X', x.nlevels = 1 ∧ x.cols ≠ [] ∧ ∀ t ∈ fh, t ∈ x.times) :
    hierPredictData (cfg.asHier order keep shared) n levels y X' fh = uniPredictData cfg m X' fh := by
  obtain ⟨n', hn', hs⟩ := (C124_fit (order := order) (keep := keep) (shared := shared) h).1 m hm
  rw [hn] at hn'
  cases hn'
  obtain ⟨-, -, hskip⟩ := (one_fit (order := order) (keep := keep) (shared := shared) h).2 n hn
  have hexog : predictExog keep levels y X' fh = .ok (X'.getD (Frame.ofIndex fh)) := by
    have hempty : emptyExog keep levels y fh = .ok (Frame.ofIndex fh : Frame String τ K) := by
      unfold emptyExog reindexTimeSeries Frame.reindex
      have hnd : y.index.Nodup := by
        have := h.dates
        unfold Frame.times at this
        unfold Frame.index
        refine List.Nodup.of_map Prod.snd ?_
        simpa [List.map_map, Function.comp_def] using this
      rw [if_pos h.flat, if_pos hnd]
      show Except.ok (aggregate keep (Frame.ofMultiIndex y.nlevels _)) = _
      unfold aggregate
      rw [if_pos (show (Frame.ofMultiIndex y.nlevels _ : Frame String τ K).nlevels = 1 from h.flat)]
      simp [Frame.ofMultiIndex, Frame.ofIndex, Frame.index, h.flat, Function.comp_def]
    unfold predictExog
    cases X' with
    | none =>
      show (do locBottom (← emptyExog keep levels y fh)) = _
      rw [hempty]
      rfl
    | some x =>
      show (if x.cols = [] then _ else locBottom x) = _
      rw [if_neg (hX' x rfl).2.1]
      unfold locBottom
      rw [if_pos (hX' x rfl).1]
      rfl
  have hpe : predictExpand (cfg.asHier order keep shared).features n.expand (X'.getD (Frame.ofIndex fh)) fh
      = .ok (X'.getD (Frame.ofIndex fh)) := by
    unfold predictExpand
    cases hst : n.expand with
    | none => rfl
    | some s =>
      have ht : ∀ t ∈ fh, t ∈ (X'.getD (Frame.ofIndex fh)).times := by
        cases X' with
        | none => simp [Frame.ofIndex, Frame.times]
        | some x => exact (hX' x rfl).2.2
      dsimp only
      rw [if_pos ht, show (cfg.asHier order keep shared).features = .ok from h.noTransform]
      show expandTransform s _ = _
      unfold expandTransform
      rw [if_pos (hskip s hst)]
  unfold hierPredictData uniPredictData
  rw [show (cfg.asHier order keep shared).keep = keep from rfl, hexog]
  simp only [Bind.bind, Except.bind, hpe, h.noTransform, hs.trend, hs.fitted]

end

/-! ## The posterior -/

theorem timeBySeries_single (d : List ℝ) : timeBySeries (⟨[1, d.length, 1], d⟩ : Tensor ℝ)
    = .ok ⟨[d.length, 1], d⟩ := by
  unfold timeBySeries squeezeLast
  rw [if_pos (by simp)]
  show Except.ok (Tensor.transpose ⟨[1, d.length], d⟩) = _
  unfold Tensor.transpose Tensor.ofFn
  congr 2
  have : Tensor.indices [1, d.length].reverse = (List.range d.length).map fun i => [i, 0] := by
    simp only [List.reverse_cons, List.reverse_nil, List.nil_append, List.cons_append, Tensor.indices,
      List.range_one, List.flatMap_cons, List.flatMap_nil, List.map_cons, List.map_nil, List.append_nil]
    induction List.range d.length with
    | nil => rfl
    | cons a l ih => simpa using ih
  rw [this, List.map_map]
  apply List.ext_getElem
  · simp
  · intro k h1 h2
    simp [Tensor.get?, Tensor.ravel, Tensor.size, h2]

section
variable {D : Type}

theorem scope_agree {θ φ : SiteEnv ℝ}
    (h : ∀ s, s ≠ "std_observation" → s ≠ "noise_scale" → φ s = θ s) (p : String) :
    φ.scope p = θ.scope p := by
  funext s
  unfold SiteEnv.scope
  have : ∀ q : String, '/' ∉ q.toList → p ++ "/" ++ s ≠ q := by
    rintro q hq rfl
    simp at hq
  exact h _ (this _ (by decide)) (this _ (by decide))

theorem runMean_agree {trend : EffectCall D ℝ} {tp : Priors D} (ht : ∀ d p, IgnoresNoise fun θ => trend θ d p)
    (hp : ∀ d p, IgnoresNoise fun θ => tp θ d p) (trendData : D) (data : PyDict D)
    (effects : PyDict (EffectCall D ℝ)) (pr : String → Priors D) :
    IgnoresNoise (runMean trend tp trendData data effects pr) := by
  intro θ φ h
  unfold runMean
  rw [show tp φ trendData [] = tp θ trendData [] from hp _ _ θ φ h,
    show trend φ trendData [] = trend θ trendData [] from ht _ _ θ φ h]
  have : runStep φ data pr = runStep θ data pr := by
    funext st e
    unfold runStep meanStep
    rw [scope_agree h]
  rw [this]

/-- **C124**, the posterior: the two models give the same parameters the same density, the noise
level of one being the observation standard deviation of the other. -/
theorem C124_density {trend : EffectCall D ℝ} {tp : Priors D}
    (ht : ∀ d p, IgnoresNoise fun θ => trend θ d p) (hp : ∀ d p, IgnoresNoise fun θ => tp θ d p)
    (lkj : Nat → ℝ → Tensor ℝ → ℝ) (ns conc scale : ℝ) (y : List ℝ) (trendData : D) (data : PyDict D)
    (effects : PyDict (EffectCall D ℝ)) (pr : String → Priors D) {θ φ : SiteEnv ℝ}
    (h : Renamed φ θ) :
    panelLogJoint lkj ns conc true ⟨[1, y.length, 1], y⟩ trend tp trendData data effects pr φ
      = logJoint .normal ns scale y trend tp trendData data effects pr θ := by
  unfold panelLogJoint logJoint modelStmts
  rw [runMean_agree ht hp trendData data effects pr θ φ h.2]
  cases runMean trend tp trendData data effects pr θ with
  | error e => rfl
  | ok r =>
    simp only [Bind.bind, Except.bind]
    unfold panelObsLog obsStmts multivariateObs
    rw [timeBySeries_single]
    have hr : r.1.mean.reshapeInfer 1 = .ok ⟨[r.1.mean.data.length, 1], r.1.mean.data⟩ := by
      unfold Tensor.reshapeInfer
      rw [if_pos ⟨by decide, Nat.mod_one _⟩, Nat.div_one]
    have hs : siteScalar φ "std_observation" = siteScalar θ "noise_scale" := by
      unfold siteScalar
      rw [h.1]
    simp only [Bind.bind, Except.bind, if_true, hr, pure, Except.pure]
    unfold sampleSite
    rw [h.1, hs]
    by_cases h1 : (θ "noise_scale").data.length = [halfNormalLP ns].length
    · rw [if_pos h1, if_pos h1]
      dsimp only
      unfold observeSite univariateObs
      by_cases h2 : y.length = r.1.mean.data.length
      · rw [if_pos (by simpa using h2), if_pos (by simpa using h2)]
        simp only [Except.map, logDensity, List.map_append, List.sum_append, List.map_cons, List.map_nil,
          Stmt.logProb, List.map_map]
        rfl
      · rw [if_neg (by simpa using h2), if_neg (by simpa using h2)]
        rfl
    · rw [if_neg h1, if_neg h1]
      rfl

/-- The parameters of one model as parameters of the other. -/
def toPanel (θ : SiteEnv ℝ) : SiteEnv ℝ := Function.update θ "std_observation" (θ "noise_scale")

/-- The converse of `toPanel`. -/
def ofPanel (φ : SiteEnv ℝ) : SiteEnv ℝ := Function.update φ "noise_scale" (φ "std_observation")

theorem toPanel_renamed (θ : SiteEnv ℝ) : Renamed (toPanel θ) θ :=
  ⟨by simp [toPanel], fun s h _ => by simp [toPanel, h]⟩

theorem ofPanel_renamed (φ : SiteEnv ℝ) : Renamed φ (ofPanel φ) :=
  ⟨by simp [ofPanel], fun s _ h => by simp [ofPanel, h]⟩

/-- **C124**, best fits: parameters are a best fit of the hierarchical model exactly if they are one of
the univariate model with normal likelihood. -/
theorem C124_best {trend : EffectCall D ℝ} {tp : Priors D}
    (ht : ∀ d p, IgnoresNoise fun θ => trend θ d p) (hp : ∀ d p, IgnoresNoise fun θ => tp θ d p)
    (lkj : Nat → ℝ → Tensor ℝ → ℝ) (ns conc scale : ℝ) (y : List ℝ) (trendData : D) (data : PyDict D)
    (effects : PyDict (EffectCall D ℝ)) (pr : String → Priors D) (N : ℝ → Prop) {θ φ : SiteEnv ℝ} (L : ℝ)
    (h : Renamed φ θ) :
    Unbeaten (panelLogJoint lkj ns conc true ⟨[1, y.length, 1], y⟩ trend tp trendData data effects pr)
        "std_observation" N φ L
      ↔ Unbeaten (logJoint .normal ns scale y trend tp trendData data effects pr) "noise_scale" N θ L := by
  have key := fun {θ φ : SiteEnv ℝ} (h : Renamed φ θ) =>
    C124_density ht hp lkj ns conc scale y trendData data effects pr h
  have hs : ∀ {θ φ : SiteEnv ℝ}, Renamed φ θ →
      siteScalar φ "std_observation" = siteScalar θ "noise_scale" := by
    intro θ φ h
    unfold siteScalar
    rw [h.1]
  constructor
  · rintro ⟨h0, h1, h2⟩
    refine ⟨hs h ▸ h0, key h ▸ h1, fun θ₂ L₂ hN h3 => h2 (toPanel θ₂) L₂ ?_ ?_⟩
    · rwa [hs (toPanel_renamed θ₂)]
    · rw [key (toPanel_renamed θ₂), h3]
  · rintro ⟨h0, h1, h2⟩
    refine ⟨(hs h).symm ▸ h0, (key h).trans h1, fun φ₂ L₂ hN h3 => h2 (ofPanel φ₂) L₂ ?_ ?_⟩
    · rwa [← hs (ofPanel_renamed φ₂)]
    · rw [← key (ofPanel_renamed φ₂), h3]

end

/-! ## The trends of the package -/

section
variable {τ : Type}

theorem agree_at {θ φ : SiteEnv ℝ} (h : ∀ s, s ≠ "std_observation" → s ≠ "noise_scale" → φ s = θ s) :
    φ "offset" = θ "offset" ∧ φ "changepoint_coefficients" = θ "changepoint_coefficients" ∧
      φ "capacity" = θ "capacity" ∧ φ "trend_flat_coefficient" = θ "trend_flat_coefficient" :=
  ⟨h _ (by decide) (by decide), h _ (by decide) (by decide), h _ (by decide) (by decide),
    h _ (by decide) (by decide)⟩

/-- **C124**: the trends of the package (piecewise linear, logistic, flat) do not read the noise level,
nor do their priors, and they are fitted to the target only. -/
theorem C124_trends [LinearOrder τ] (days : τ → ℝ) (suggest : List ℝ → Tensor ℝ → PyM (List ℝ × List ℝ))
    (p : PiecewiseParams ℝ τ) (os : ℝ) (cap : ℝ → ℝ) (st : Option (PiecewiseState ℝ τ)) (loc : Option ℝ) :
    (∀ sq n d pe, IgnoresNoise fun θ => piecewisePredict sq n θ d pe) ∧
    (∀ sq n d pe, IgnoresNoise fun θ => logisticPredict sq n θ d pe) ∧
    (∀ d pe, IgnoresNoise fun θ => flatPredict (K := ℝ) θ d pe) ∧
    (∀ d pe, IgnoresNoise fun θ => piecewisePriors os st θ d pe) ∧
    (∀ d pe, IgnoresNoise fun θ => logisticPriors cap os st θ d pe) ∧
    (∀ d pe, IgnoresNoise fun θ => flatPriors os loc θ d pe) ∧
    (∀ predict s y (X X' : Option (Frame String τ ℝ)) sc sc',
      (piecewiseClass days suggest predict p).fit s y X sc
        = (piecewiseClass days suggest predict p).fit s y X' sc') ∧
    (∀ s (y : Frame String τ ℝ) (X X' : Option (Frame String τ ℝ)) sc sc',
      flatClass.fit s y X sc = flatClass.fit s y X' sc') := by
  have hpp : ∀ d pe, IgnoresNoise fun θ => piecewisePriors os st θ d pe := by
    intro d pe θ φ h
    obtain ⟨h1, h2, h3, h4⟩ := agree_at h
    cases st with
    | none => rfl
    | some s => simp only [piecewisePriors, sampleSite, h1, h2]
  have hpw : ∀ sq n d pe, IgnoresNoise fun θ => piecewisePredict (K := ℝ) sq n θ d pe := by
    intro sq n d pe θ φ h
    obtain ⟨h1, h2, h3, h4⟩ := agree_at h
    simp only [piecewisePredict, h1, h2]
  refine ⟨hpw, ?_, ?_, hpp, ?_, ?_, fun _ _ _ _ _ _ _ => rfl, fun _ _ _ _ _ _ => rfl⟩
  · intro sq n d pe θ φ h
    obtain ⟨h1, h2, h3, h4⟩ := agree_at h
    have := hpw sq n d pe θ φ h
    dsimp only at this
    simp only [logisticPredict, this, h3]
  · intro d pe θ φ h
    obtain ⟨h1, h2, h3, h4⟩ := agree_at h
    simp only [flatPredict, h4]
  · intro d pe θ φ h
    obtain ⟨h1, h2, h3, h4⟩ := agree_at h
    cases st with
    | none => rfl
    | some s =>
      have := hpp d pe θ φ h
      dsimp only at this
      simp only [logisticPriors, sampleSite, h3, this]
  · intro d pe θ φ h
    obtain ⟨h1, h2, h3, h4⟩ := agree_at h
    cases loc with
    | none => rfl
    | some s => simp only [flatPriors, sampleSite, h4]

end

/-! ## The forecast table -/

theorem invScaleY_nlevels {ι τ K : Type} [Field K] [LinearOrder K] {d : Bool} {sc : Scale K} {f g : Frame ι τ K}
    (h : invScaleY d sc f = .ok g) : g.nlevels = f.nlevels := by
  unfold invScaleY at h
  split at h
  · cases h
    rfl
  · cases hr : rowScales sc f with
    | error e => rw [hr] at h; cases h
    | ok ss =>
      rw [hr] at h
      cases h
      rfl

/-- **C124**, the table of samples: from the same draws both make the same table; no aggregates are
added to one series. -/
theorem C124_samples {τ K : Type} [Field K] [LinearOrder K] [LinearOrder τ] (keep : List String → Bool)
    (ctx : Fitted K) (h1 : ctx.yNlevels = 1) (obs : Tensor K) (fh : List τ) :
    predictSamplesHier keep { ctx with hierarchical := true } obs fh
      = predictSamples { ctx with hierarchical := false } obs fh := by
  have he : predictSamples { ctx with hierarchical := true } obs fh
      = predictSamples { ctx with hierarchical := false } obs fh := by
    unfold predictSamples periodindexToMultiindex
    simp only [h1, if_true]
  unfold predictSamplesHier
  rw [he]
  cases hf : predictSamples { ctx with hierarchical := false } obs fh with
  | error e => rfl
  | ok f =>
    have hl : f.nlevels = 1 := by
      unfold predictSamples at hf
      cases hsh : obs.shape with
      | nil => rw [hsh] at hf; cases hf
      | cons a sh =>
      rw [hsh] at hf
      simp only [Bind.bind, Except.bind, pure, Except.pure] at hf
      split at hf
      · cases hf
      split at hf
      · cases hf
      split at hf
      · cases hf
      rename_i g hg
      rw [invScaleY_nlevels hf]
      unfold frameOfMatrix at hg
      split at hg
      · cases hg
        exact h1
      · cases hg
    show Except.ok (aggregate keep f) = _
    unfold aggregate
    rw [if_pos hl]

/-! ## Forecasters with piecewise linear trend, seasonalities and linear effects -/

section
variable {τ : Type} [LinearOrder τ] {position : τ → ℤ} {compile : String → PyM (String → Bool)}
  {order : List String → List String} {days : τ → ℝ}
  {suggest : List ℝ → Tensor ℝ → PyM (List ℝ × List ℝ)}
  {p : PiecewiseParams ℝ τ} {kind : String → EffectKind}
  {cfg : UniConfig (UsualAttrs τ) (Scale ℝ) τ ℝ (AnyData ℝ) ℝ} {y : Frame String τ ℝ} {c : String}
  {X : Option (Frame String τ ℝ)} {x : Frame String τ ℝ}
  {m : UniFit (UsualAttrs τ) (Scale ℝ) τ ℝ (AnyData ℝ) ℝ}

/-- The log posterior of a hierarchical forecaster after `fit`. -/
noncomputable def oneDensity (kind : String → EffectKind) (lkj : Nat → ℝ → Tensor ℝ → ℝ) (ns conc os : ℝ)
    (n : HierFit (UsualAttrs τ) (Scale ℝ) τ (AnyData ℝ) ℝ) (φ : SiteEnv ℝ) : PyM ℝ :=
  panelLogJoint lkj ns conc n.single n.yArray (n.trend.cls.call n.trend.st)
    (usualTrendPriors os n.trend.st.2) n.trendData n.data (callsOf n.objs) (fun k => (kind k).priors) φ

/-- **C124**, end to end: the hierarchical forecaster fitted to one series has the posterior, and the
best fits, of the univariate forecaster with normal likelihood. -/
theorem C124_usual (hU : Usual position compile order days suggest p kind cfg) (h : OneSeries cfg y X)
    (ord : List String → List String) (keep : List String → Bool) (shared : List String)
    (hm : uniFitData cfg y X = .ok m) :
    ∃ n, hierFitData (cfg.asHier ord keep shared) y X = .ok n ∧
      ∀ (lkj : Nat → ℝ → Tensor ℝ → ℝ) (ns conc scale os : ℝ) (θ φ : SiteEnv ℝ), Renamed φ θ →
        oneDensity kind lkj ns conc os n φ = usualDensity kind .normal ns scale os m θ ∧
        ∀ N L, Unbeaten (oneDensity kind lkj ns conc os n) "std_observation" N φ L
          ↔ Unbeaten (usualDensity kind .normal ns scale os m) "noise_scale" N θ L := by
  obtain ⟨n, hn, hs⟩ := (C124_fit (order := ord) (keep := keep) (shared := shared) h).1 m hm
  refine ⟨n, hn, fun lkj ns conc scale os θ φ hR => ?_⟩
  have hcls : m.trend.cls = cfg.trend.cls := by
    obtain ⟨yT, x0, x', hyT, htf, -⟩ := uniFitData_ok hm
    unfold EffectObj.fit at htf
    cases hb : baseFit cfg.trend.cls.toHooks cfg.trend.st yT X cfg.unitScale with
    | error e => rw [hb] at htf; cases htf
    | ok st => rw [hb] at htf; exact (congrArg EffectObj.cls (Except.ok.inj htf)).symm
  have ht : ∀ d pe, IgnoresNoise fun θ => m.trend.cls.call m.trend.st θ d pe := by
    intro d pe θ φ hR
    rw [hcls, hU.trend]
    simp only [EffectObj.embed, EffectClass.new, EffectClass.embed]
    cases Attrs.piecewiseEmb.proj m.trend.st.2 with
    | none => rfl
    | some s =>
      cases d.proj AnyData.arrayEmb with
      | none => rfl
      | some d =>
        cases s with
        | none => rfl
        | some s =>
          cases d with
          | emptyDict => rfl
          | data d => exact (C124_trends days suggest p os (fun _ => 0) none none).1 _ _ _ pe θ φ hR
  have hp : ∀ d pe, IgnoresNoise fun θ => usualTrendPriors os m.trend.st.2 θ d pe := by
    intro d pe θ φ hR
    cases m.trend.st.2 with
    | plain => rfl
    | fourier s => rfl
    | piecewise s =>
      simp only [usualTrendPriors, Priors.embed]
      cases d.proj AnyData.arrayEmb with
      | none => rfl
      | some d => exact (C124_trends days suggest p os (fun _ => 0) s none).2.2.2.1 _ pe θ φ hR
  have e : ∀ ψ, oneDensity kind lkj ns conc os n ψ = panelLogJoint lkj ns conc true
      ⟨[1, m.yArray.length, 1], m.yArray⟩ (m.trend.cls.call m.trend.st) (usualTrendPriors os m.trend.st.2)
      m.trendData m.data (callsOf m.objs) (fun k => (kind k).priors) ψ := by
    intro ψ
    unfold oneDensity
    rw [hs.single, hs.target, hs.trend, hs.trendData, hs.data, hs.objs]
  refine ⟨(e φ).trans (C124_density ht hp lkj ns conc scale m.yArray _ _ _ _ hR), fun N L => ?_⟩
  rw [show oneDensity kind lkj ns conc os n = _ from funext e]
  exact C124_best ht hp lkj ns conc scale m.yArray _ _ _ _ N L hR

end

/-! ## Non-vacuity -/

theorem exOne124 : OneSeries exCfg95 exY85 (some exX85) where
  flat := rfl
  column := ⟨"y", rfl⟩
  plain := by simp [exY85]
  dates := by simp [exY85, Frame.times]
  continuous := rfl
  noFit := rfl
  noTransform := rfl
  trend := by
    intro s y X X' sc sc'
    rfl
  exog := by
    intro x hx
    cases hx
    simp [exX85, exY85, Frame.times]
  names := by
    intro x hx c hc
    exact ⟨_, rfl⟩

example : ∃ n, hierFitData (exCfg95.asHier id (fun _ => true) []) exY85 (some exX85) = .ok n ∧ SameFit n exM95 :=
  (C124_fit exOne124).1 _ exFitted95

example := C124_usual exUsual95 exOne124 id (fun _ => true) ["a"] exFitted95

example (n) (hn : hierFitData (exCfg95.asHier id (fun _ => true) []) exY85 (some exX85) = .ok n) :=
  C124_predict exOne124 exFitted95 hn [] (some ⟨1, ["a"], [⟨[], 3, fun _ => 2⟩]⟩) [3]
    (by intro x hx; cases hx; simp [Frame.times])

example : Renamed (fun s => if s = "std_observation" then ⟨[], [3]⟩ else ⟨[], [1]⟩)
    (fun s => if s = "noise_scale" then ⟨[], [3]⟩ else ⟨[], [1]⟩) :=
  ⟨by simp, fun s h1 h2 => by simp [h1, h2]⟩

end PV
