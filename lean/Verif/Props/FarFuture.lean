import Mathlib.Order.Filter.AtTopBot.Archimedean
import Verif.Props.WhatIf
import Verif.Props.TrendFitted
import Verif.Props.Logistic

/-!
# C117: forecasts far ahead
-/

namespace PV
open Tensor

section
variable {S τ : Type} [LinearOrder τ]

/-! ## The fitted trend of one series -/

/-- What the fit of a piecewise trend on one series with the days `ds` leaves behind: trend time runs
from 0 to the number of dates minus one, changepoints lie before the limit. -/
structure TrendFittedOn (days : τ → ℝ) (ds : List ℝ) (interval limit : ℝ) (s : PiecewiseState ℝ τ) (cs : List ℝ) :
    Prop where
  cps : s.cps = [cs]
  series : s.series = none
  one : s.time.nSeries = 1
  time : ∀ t, s.time.scaled days t = trendTimeOf ds (days t)
  before : AreChangepoints interval limit cs

theorem uni_trend {days : τ → ℝ} {suggest : List ℝ → Tensor ℝ → PyM (List ℝ × List ℝ)}
    {predict : Bool → Nat → EffectCall (Tensor ℝ) ℝ} {p : PiecewiseParams ℝ τ} {i r limit : ℝ}
    {cfg : UniConfig (Option (PiecewiseState ℝ τ)) (Scale ℝ) τ ℝ (Tensor ℝ) ℝ} {y : Frame String τ ℝ}
    {X : Option (Frame String τ ℝ)} {m : UniFit (Option (PiecewiseState ℝ τ)) (Scale ℝ) τ ℝ (Tensor ℝ) ℝ}
    (htrend : cfg.trend = (piecewiseClass days suggest predict p).new)
    (hi : p.interval = .scalar i) (hi0 : 0 < i) (hr : p.range = .scalar r) {ds : List ℝ}
    (hy : y.nlevels = 1) (hd : HistoryDays days y ds) (hlim : RangeLimit ds.length r limit)
    (hfit : uniFitData cfg y X = .ok m) :
    m.trend.cls = piecewiseClass days suggest predict p ∧
    ∃ s cs, m.trend.st.2 = some s ∧ TrendFittedOn days ds i limit s cs := by
  obtain ⟨yT, hyT, htimes, htf⟩ : ∃ yT : Frame String τ ℝ, yT.nlevels = y.nlevels ∧
      yT.rows.map Row.time = y.rows.map Row.time ∧ cfg.trend.fit yT X cfg.unitScale = .ok m.trend := by
    unfold uniFitData at hfit
    simp only [bind, Except.bind] at hfit
    split at hfit
    · cases hfit
    rename_i tr htr
    split at hfit
    · cases hfit
    split at hfit
    · cases hfit
    split at hfit
    · cases hfit
    split at hfit
    · cases hfit
    split at hfit
    · cases hfit
    split at hfit
    · cases hfit
    cases hfit
    refine ⟨_, ?_, ?_, htr⟩
    · split <;> rfl
    · split
      · simp [Frame.mapVals, Function.comp_def]
      · rfl
  rw [htrend] at htf
  obtain ⟨hcls, s, hs, hpf⟩ := piecewise_fit_state htf
  have hd' : HistoryDays days yT ds := ⟨by rw [htimes]; exact hd.dates, hd.two, hd.increasing⟩
  have hn : CountOfSeries yT 1 := .inl ⟨(hyT.trans hy).le, rfl⟩
  obtain ⟨hl, hc⟩ := C34_fitted hpf hn hd' (by rw [hi]; trivial) (by rw [hr]; trivial)
    (by
      intro k _ v hv
      rw [hi] at hv
      cases hv
      exact hi0)
  obtain ⟨v, r', limit', cs, e1, e2, e3, e4, e5⟩ := hc 0 one_pos
  rw [hi] at e1
  cases e1
  rw [hr] at e2
  cases e2
  have hll : limit' = limit := by rw [rangeLimit_iff.1 e3, rangeLimit_iff.1 hlim]
  subst hll
  have hcs : s.cps = [cs] := by
    match hst : s.cps, hl with
    | [x], _ => rw [hst] at e4; simpa using e4
  obtain ⟨tt, htt, hns, hsc, -⟩ := trendTimeFit_history hd' hn
  obtain ⟨tt', cps, y', ya, s', h1, -, -, -, -, hseq⟩ := piecewiseFit_inv hpf
  rw [htt] at h1
  cases h1
  refine ⟨hcls, s, cs, hs, hcs, ?_, ?_, ?_, e5⟩
  · rw [hseq]
    simp [hyT, hy]
  · rw [hseq]
    exact hns
  · rw [hseq]
    exact hsc

/-- Past the last training date, trend time is past all changepoints. -/
theorem past_changepoints {days : τ → ℝ} {ds : List ℝ} {i limit : ℝ} {s : PiecewiseState ℝ τ} {cs : List ℝ}
    (h : TrendFittedOn days ds i limit s cs) (h2 : 2 ≤ ds.length) (hinc : ds.Pairwise (· < ·))
    (hlim : limit ≤ (ds.length : ℝ) - 1) {t : τ} (ht : ds.getLastD 0 ≤ days t) :
    ∀ c ∈ cs, c ≤ s.time.scaled days t := by
  intro c hc
  obtain ⟨k, -, hk⟩ := (h.before.mem c).1 hc
  rw [h.time]
  refine (hk.le.trans hlim).trans ?_
  unfold trendTimeOf
  match ds, h2 with
  | d :: e :: l, _ =>
    have hlt : d < (e :: l).getLastD d := (List.pairwise_cons.1 hinc).1 _ (getLastD_mem (by simp))
    have hg : (d :: e :: l).getLastD 0 = (e :: l).getLastD d := by simp only [List.getLastD_cons]
    rw [hg] at ht ⊢
    simp only [List.headD_cons]
    rw [le_div_iff₀ (sub_pos.2 hlt), mul_comm]
    have : (0 : ℝ) ≤ ((d :: e :: l).length : ℝ) - 1 := by
      simp only [List.length_cons, Nat.cast_add, Nat.cast_one]
      have : (0 : ℝ) ≤ (l.length : ℝ) := Nat.cast_nonneg _
      linarith
    gcongr

/-- Past the last training date the linear trend is a line: its slope is the sum of the coefficients. -/
theorem far_line {days : τ → ℝ} {ds : List ℝ} {i limit : ℝ} {s : PiecewiseState ℝ τ} {cs : List ℝ}
    (h : TrendFittedOn days ds i limit s cs) (h2 : 2 ≤ ds.length) (hinc : ds.Pairwise (· < ·))
    (hlim : limit ≤ (ds.length : ℝ) - 1) {θ : SiteEnv ℝ} (hθ : SingleSites cs θ) {t t' : τ}
    (ht : ds.getLastD 0 ≤ days t) (ht' : ds.getLastD 0 ≤ days t') :
    piecewiseAt days s cs θ t' - piecewiseAt days s cs θ t
      = (θ "changepoint_coefficients").data.sum * (trendTimeOf ds (days t') - trendTimeOf ds (days t)) := by
  have h1 := past_changepoints h h2 hinc hlim ht
  have h1' := past_changepoints h h2 hinc hlim ht'
  unfold piecewiseAt
  rw [trendAt_diff fun c hc => iff_of_true (h1 c hc) (h1' c hc), C37_last_slope hθ.2.symm h1, h.time, h.time]

/-! ## C117 -/

variable {days : τ → ℝ} {suggest : List ℝ → Tensor ℝ → PyM (List ℝ × List ℝ)}
  {p : PiecewiseParams ℝ τ} {i r limit : ℝ}
  {cfg : UniConfig (Option (PiecewiseState ℝ τ)) (Scale ℝ) τ ℝ (Tensor ℝ) ℝ} {y : Frame String τ ℝ}
  {X : Option (Frame String τ ℝ)} {m : UniFit (Option (PiecewiseState ℝ τ)) (Scale ℝ) τ ℝ (Tensor ℝ) ℝ}
  {mode : String → String} {kind : String → Curve} {ds : List ℝ}

/-- A forecaster with a piecewise trend and linear, log and Hill effects, and a history of one series on the
days `ds`, with changepoints inside the history only. -/
structure Extrapolates (days : τ → ℝ) (suggest : List ℝ → Tensor ℝ → PyM (List ℝ × List ℝ))
    (predict : Bool → Nat → EffectCall (Tensor ℝ) ℝ) (p : PiecewiseParams ℝ τ) (mode : String → String)
    (kind : String → Curve) (cfg : UniConfig (Option (PiecewiseState ℝ τ)) (Scale ℝ) τ ℝ (Tensor ℝ) ℝ)
    (y : Frame String τ ℝ) (ds : List ℝ) : Prop where
  trend : cfg.trend = (piecewiseClass days suggest predict p).new
  squeeze : p.squeeze = true
  interval : ∃ i, p.interval = .scalar i ∧ 0 < i
  range : ∃ r limit, p.range = .scalar r ∧ RangeLimit ds.length r limit ∧ limit ≤ (ds.length : ℝ) - 1
  effects : ∀ e ∈ cfg.effects, e.effect.cls = (kind e.name).cls (mode e.name)
  default : cfg.default.cls = (kind "exogenous_variables_effect").cls (mode "exogenous_variables_effect")
  names : (cfg.effects.map EffectSpec.name).Nodup
  noDefault : "exogenous_variables_effect" ∉ cfg.effects.map EffectSpec.name
  noTrend : "trend" ∉ cfg.effects.map EffectSpec.name
  flat : y.nlevels = 1
  days : HistoryDays days y ds

/-- Days between the first and the last training date, divided by the number of steps. -/
noncomputable def dayStep (ds : List ℝ) : ℝ := (ds.getLastD 0 - ds.headD 0) / ((ds.length : ℝ) - 1)

theorem dayStep_pos (h2 : 2 ≤ ds.length) (hinc : ds.Pairwise (· < ·)) : 0 < dayStep ds := by
  match ds, h2 with
  | d :: e :: l, _ =>
    have hlt : d < (e :: l).getLastD d := (List.pairwise_cons.1 hinc).1 _ (getLastD_mem (by simp))
    have hg : (d :: e :: l).getLastD 0 = (e :: l).getLastD d := by simp only [List.getLastD_cons]
    unfold dayStep
    rw [hg]
    simp only [List.headD_cons]
    refine div_pos (sub_pos.2 hlt) ?_
    simp only [List.length_cons, Nat.cast_add, Nat.cast_one]
    have : (0 : ℝ) ≤ (l.length : ℝ) := Nat.cast_nonneg _
    linarith

theorem trendTimeOf_diff (d d' : ℝ) :
    trendTimeOf ds d' - trendTimeOf ds d = (d' - d) / dayStep ds := by
  unfold trendTimeOf dayStep
  rw [div_div_eq_mul_div, ← sub_div]
  congr 1
  ring

/-- **C117**, linear trend: past the last training date the trend follows one line, whose slope per step is
the sum of all coefficients.  With the same values of the regressors, the forecasts of additive models differ
by what the trend differs, and those of multiplicative models are the same multiple of the trend. -/
theorem C117_line (hE : Extrapolates days suggest piecewisePredict p mode kind cfg y ds)
    (hfit : uniFitData cfg y X = .ok m) :
    ∃ s cs, m.trend.st.2 = some s ∧ s.cps = [cs] ∧ ∀ (θ : SiteEnv ℝ), SingleSites cs θ →
      ∀ (X₁ X₂ x₁ x₂ : Frame String τ ℝ) (fh₁ fh₂ : List τ) (st₁ st₂ : MeanState ℝ),
      Predicts cfg m θ X₁ fh₁ x₁ st₁ → Predicts cfg m θ X₂ fh₂ x₂ st₂ →
      ∀ (i j : Nat) (t t' : τ), fh₁[i]? = some t → fh₂[j]? = some t' →
      ds.getLastD 0 ≤ days t → ds.getLastD 0 ≤ days t' →
      ∃ a₁ a₂ T₁ T₂, meanAt st₁ i = some a₁ ∧ meanAt st₂ j = some a₂ ∧ partAt st₁ "trend" i = some T₁ ∧
        partAt st₂ "trend" j = some T₂ ∧
        T₂ - T₁ = (θ "changepoint_coefficients").data.sum * ((days t' - days t) / dayStep ds) ∧
        ((∀ fe ∈ kept m.fitted, ∀ c ∈ fe.cols, rowAt x₁ t c = rowAt x₂ t' c) →
          ((∀ fe ∈ kept m.fitted, mode fe.name = "additive") → a₂ - a₁ = T₂ - T₁) ∧
          ((∀ fe ∈ kept m.fitted, mode fe.name ≠ "additive") → a₂ * T₁ = a₁ * T₂)) := by
  obtain ⟨i₀, hi, hi0⟩ := hE.interval
  obtain ⟨r, limit, hr, hlim, hle⟩ := hE.range
  obtain ⟨hcls, s, cs, hs, hF⟩ := uni_trend hE.trend hi hi0 hr hE.flat hE.days hlim hfit
  have hpt : PointwiseTrend m.trend (SingleSites cs) (piecewiseAt days s cs) :=
    C71_piecewise hcls hE.squeeze hs hF.cps hF.series
  obtain ⟨hM, -⟩ := C106_builtin hfit hpt hE.effects hE.default hE.names hE.noDefault hE.noTrend
  refine ⟨s, cs, hs, hF.cps, ?_⟩
  intro θ hθ X₁ X₂ x₁ x₂ fh₁ fh₂ st₁ st₂ hp₁ hp₂ i j t t' hi hj ht ht'
  obtain ⟨-, t1, m1⟩ := predicts_forms hM (fun n => (kind n).rowWise) hθ hp₁ hi
  obtain ⟨-, t2, m2⟩ := predicts_forms hM (fun n => (kind n).rowWise) hθ hp₂ hj
  refine ⟨_, _, _, _, m1, m2, t1, t2, ?_, fun hx => ⟨fun ha => ?_, fun ha => ?_⟩⟩
  · rw [far_line hF hE.days.two hE.days.increasing hle hθ ht ht', trendTimeOf_diff]
  · have : ((kept m.fitted).map fun fe => rowValue (mode fe.name) fe.cols (kind fe.name).rows (θ.scope fe.name) t
        (piecewiseAt days s cs θ t) (rowAt x₁ t)) = (kept m.fitted).map fun fe => rowValue (mode fe.name) fe.cols
        (kind fe.name).rows (θ.scope fe.name) t' (piecewiseAt days s cs θ t') (rowAt x₂ t') := by
      refine List.map_congr_left fun fe hfe => ?_
      simp only [rowValue, if_pos (ha fe hfe)]
      rw [List.map_congr_left (hx fe hfe)]
    rw [this]
    ring
  · have key : ∀ (u : τ) (T : ℝ) (x : Frame String τ ℝ), ((kept m.fitted).map fun fe => rowValue (mode fe.name) fe.cols
        (kind fe.name).rows (θ.scope fe.name) u T (rowAt x u)).sum = T * ((kept m.fitted).map fun fe =>
          ((kind fe.name).rows (θ.scope fe.name) (fe.cols.map (rowAt x u))).headD 0).sum := by
      intro u T x
      rw [← List.sum_map_mul_left]
      congr 1
      refine List.map_congr_left fun fe hfe => ?_
      simp only [rowValue, if_neg (ha fe hfe)]
    have : ((kept m.fitted).map fun fe => ((kind fe.name).rows (θ.scope fe.name)
          (fe.cols.map (rowAt x₁ t))).headD 0) = (kept m.fitted).map fun fe => ((kind fe.name).rows (θ.scope fe.name)
          (fe.cols.map (rowAt x₂ t'))).headD 0 := by
      refine List.map_congr_left fun fe hfe => ?_
      rw [List.map_congr_left (hx fe hfe)]
    rw [key, key, this]
    ring

/-! ## Saturation -/

open Filter Topology

theorem tendsto_logistic_top (c : ℝ) : Tendsto (logisticOf c) atTop (𝓝 c) := by
  unfold logisticOf
  have h1 : Tendsto (fun x : ℝ => Real.exp (-x)) atTop (𝓝 0) := Real.tendsto_exp_neg_atTop_nhds_zero
  have h2 : Tendsto (fun x : ℝ => c / (1 + Real.exp (-x))) atTop (𝓝 (c / (1 + 0))) :=
    tendsto_const_nhds.div (tendsto_const_nhds.add h1) (by norm_num)
  simpa using h2

theorem tendsto_logistic_bot (c : ℝ) : Tendsto (logisticOf c) atBot (𝓝 0) := by
  unfold logisticOf
  have h1 : Tendsto (fun x : ℝ => 1 + Real.exp (-x)) atBot atTop :=
    tendsto_atTop_add_const_left _ _ (Real.tendsto_exp_atTop.comp tendsto_neg_atBot_atTop)
  exact h1.const_div_atTop c

/-- **C117**, logistic trend: always between 0 and the capacity; past the last training date it rises towards
the capacity if the coefficients have a positive sum, falls towards 0 if it is negative, and is constant if it
is 0. -/
theorem C117_saturates (hE : Extrapolates days suggest logisticPredict p mode kind cfg y ds)
    (hfit : uniFitData cfg y X = .ok m) :
    ∃ s cs, m.trend.st.2 = some s ∧ s.cps = [cs] ∧ ∀ (θ : SiteEnv ℝ) (cap : ℝ), SingleSites cs θ →
      θ "capacity" = ⟨[1, 1, 1], [cap]⟩ → 0 < cap →
      ∃ T : τ → ℝ, (∀ t, 0 < T t ∧ T t < cap) ∧
        (∀ (X₁ x₁ : Frame String τ ℝ) (fh₁ : List τ) (st₁ : MeanState ℝ), Predicts cfg m θ X₁ fh₁ x₁ st₁ →
          ∀ (i : Nat) (t : τ), fh₁[i]? = some t → partAt st₁ "trend" i = some (T t)) ∧
        (0 < (θ "changepoint_coefficients").data.sum →
          (∀ t t', ds.getLastD 0 ≤ days t → days t < days t' → T t < T t') ∧
          ∀ ε > 0, ∃ D, ∀ t, D ≤ days t → cap - ε < T t) ∧
        ((θ "changepoint_coefficients").data.sum < 0 →
          (∀ t t', ds.getLastD 0 ≤ days t → days t < days t' → T t' < T t) ∧
          ∀ ε > 0, ∃ D, ∀ t, D ≤ days t → T t < ε) ∧
        ((θ "changepoint_coefficients").data.sum = 0 →
          ∀ t t', ds.getLastD 0 ≤ days t → ds.getLastD 0 ≤ days t' → T t = T t') := by
  obtain ⟨i₀, hi, hi0⟩ := hE.interval
  obtain ⟨r, limit, hr, hlim, hle⟩ := hE.range
  obtain ⟨hcls, s, cs, hs, hF⟩ := uni_trend hE.trend hi hi0 hr hE.flat hE.days hlim hfit
  have hpt := C71_logistic hcls hE.squeeze hs hF.cps hF.series hF.one
  obtain ⟨hM, -⟩ := C106_builtin hfit hpt hE.effects hE.default hE.names hE.noDefault hE.noTrend
  refine ⟨s, cs, hs, hF.cps, ?_⟩
  intro θ cap hθ hcap hpos
  have hline : ∀ t t', ds.getLastD 0 ≤ days t → ds.getLastD 0 ≤ days t' → piecewiseAt days s cs θ t'
      = piecewiseAt days s cs θ t
        + (θ "changepoint_coefficients").data.sum * ((days t' - days t) / dayStep ds) := by
    intro t t' ht ht'
    rw [← trendTimeOf_diff, ← far_line hF hE.days.two hE.days.increasing hle hθ ht ht']
    ring
  have hstep := dayStep_pos hE.days.two hE.days.increasing
  set k := (θ "changepoint_coefficients").data.sum with hk
  -- far away the line is beyond any given height
  have hfar : ∀ (sgn : ℝ), 0 < sgn * k → ∀ M : ℝ, ∃ D, ds.getLastD 0 ≤ D ∧ ∀ t, D ≤ days t →
      M ≤ sgn * piecewiseAt days s cs θ t := by
    intro sgn hsk M
    by_cases h : ∃ t₀, ds.getLastD 0 ≤ days t₀
    · obtain ⟨t₀, ht₀⟩ := h
      refine ⟨max (ds.getLastD 0) (days t₀ + (M - sgn * piecewiseAt days s cs θ t₀) / (sgn * k) * dayStep ds),
        le_max_left _ _, fun t ht => ?_⟩
      have h1 := (le_max_left _ _).trans ht
      have h2 := (le_max_right _ _).trans ht
      rw [hline t₀ t ht₀ h1]
      have h3 : (M - sgn * piecewiseAt days s cs θ t₀) / (sgn * k) ≤ (days t - days t₀) / dayStep ds := by
        rw [le_div_iff₀ hstep]
        linarith
      rw [div_le_iff₀ hsk] at h3
      linarith
    · exact ⟨_, le_rfl, fun t ht => absurd ⟨t, ht⟩ h⟩
  refine ⟨fun t => logisticOf cap (piecewiseAt days s cs θ t), fun t => ⟨logisticOf_pos hpos, logisticOf_lt hpos⟩,
    ?_, ?_, ?_, ?_⟩
  · intro X₁ x₁ fh₁ st₁ hp₁ i t hi
    obtain ⟨-, t1, -⟩ := predicts_forms hM (fun n => (kind n).rowWise) ⟨hθ, cap, hcap⟩ hp₁ hi
    rw [t1]
    simp [hcap]
  · intro hk0
    refine ⟨fun t t' ht htt => ?_, fun ε hε => ?_⟩
    · rw [logisticOf_lt_logisticOf hpos, hline t t' ht (ht.trans htt.le)]
      have : 0 < k * ((days t' - days t) / dayStep ds) := mul_pos hk0 (div_pos (sub_pos.2 htt) hstep)
      linarith
    · have := (tendsto_logistic_top cap).eventually (lt_mem_nhds (show cap - ε < cap by linarith))
      obtain ⟨M, hM⟩ := eventually_atTop.1 this
      obtain ⟨D, -, hD⟩ := hfar 1 (by simpa using hk0) M
      exact ⟨D, fun t ht => hM _ (by simpa using hD t ht)⟩
  · intro hk0
    refine ⟨fun t t' ht htt => ?_, fun ε hε => ?_⟩
    · rw [logisticOf_lt_logisticOf hpos, hline t t' ht (ht.trans htt.le)]
      have : k * ((days t' - days t) / dayStep ds) < 0 :=
        mul_neg_of_neg_of_pos hk0 (div_pos (sub_pos.2 htt) hstep)
      linarith
    · have := (tendsto_logistic_bot cap).eventually (gt_mem_nhds hε)
      obtain ⟨M, hM⟩ := eventually_atBot.1 this
      obtain ⟨D, -, hD⟩ := hfar (-1) (by simpa using hk0) (-M)
      exact ⟨D, fun t ht => hM _ (by have := hD t ht; linarith)⟩
  · intro hk0 t t' ht ht'
    simp only
    rw [hline t t' ht ht', hk0]
    simp

end
end PV
