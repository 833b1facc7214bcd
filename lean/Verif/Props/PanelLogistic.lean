import Verif.Props.OwnRows
import Verif.Props.Logistic
import Verif.Props.PanelDefined

/-!
# C74 for panels with logistic trends

Each series has its own capacity, offset and rates.
-/

namespace PV
open Tensor

section
variable {τ V : Type} [LinearOrder τ]

/-- The logistic trend of series `s` at date `t`: its own piecewise linear trend, squashed below its own capacity. -/
noncomputable def panelLogisticAt (days : τ → ℝ) (st : PiecewiseState ℝ τ) (ss : List (List String)) (θ : SiteEnv ℝ)
    (s : List String) (t : τ) : ℝ :=
  logisticOf ((θ "capacity").data.getD (ss.idxOf s) 0) (panelTrendAt days st ss θ s t)

/-- The sites of a logistic trend over several series: one capacity and one offset per series and one coefficient
per changepoint. -/
def LogisticSites (cps : List (List ℝ)) (θ : SiteEnv ℝ) : Prop :=
  PanelSites cps θ ∧ (θ "capacity").shape = [cps.length, 1, 1] ∧ (θ "capacity").data.length = cps.length

/-- A logistic trend over several series, cell by cell. -/
theorem logistic_cells {days : τ → ℝ} {suggest : List ℝ → Tensor ℝ → PyM (List ℝ × List ℝ)}
    {p : PiecewiseParams ℝ τ} {e : EffectObj _ _ _ τ V _ ℝ}
    (hc : e.cls = piecewiseClass days suggest logisticPredict p)
    {st : PiecewiseState ℝ τ} (hst : e.st.2 = some st) {ss : List (List String)} (hnd : ss.Nodup)
    (hser : st.series = some ss) (hcps : st.cps.length = ss.length)
    (hns : st.time.nSeries = ss.length) (hsq : ss.length ≠ 1 ∨ p.squeeze = false) :
    ∀ θ x fh d v, LogisticSites st.cps θ → ss ≠ [] → fh.Pairwise (· < ·) → e.transform (some x) fh = .ok d →
      e.cls.call e.st θ d [] = .ok v → v = panelOf ss fh (panelLogisticAt days st ss θ) := by
  rintro θ x fh d v ⟨hθ, hcs, hcl⟩ hne hinc ht hv
  obtain ⟨cols, m, rfl, hm⟩ := trend_transform_data (by rw [hc]; rfl) (by rw [hc]; rfl) ht
  have ht' : ({ e with cls := piecewiseClass days suggest piecewisePredict p } :
      EffectObj _ _ _ τ V _ ℝ).transform (some x) fh = .ok (.data m) := by
    rw [← ht]
    unfold EffectObj.transform
    rw [hc]
    rfl
  rw [hc] at hv
  simp only [piecewiseClass, hst, logisticPredict, bind, Except.bind] at hv
  split at hv
  · cases hv
  rename_i v0 hv0
  have h0 := piecewise_cells (e := { e with cls := piecewiseClass days suggest piecewisePredict p }) rfl hst hnd hser hcps
    hns hsq θ x fh (.data m) v0 hθ hne hinc ht' (by simp only [piecewiseClass, hst]; exact hv0)
  have hsh : v0.shape = [ss.length, fh.length, 1] := by rw [h0]; rfl
  have hcell : ∀ i s j t, ss[i]? = some s → fh[j]? = some t →
      v0.get? [i, j, 0] = some (panelTrendAt days st ss θ s t) := by
    intro i s j t hi hj
    rw [h0, panelOf_get? hi hj]
  rw [hns] at hv
  rw [hcps] at hcs hcl
  obtain ⟨w, hw⟩ : ∃ w, w = (θ "capacity").data := ⟨_, rfl⟩
  have hcap : θ "capacity" = ⟨[w.length, 1, 1], w⟩ := by
    rw [hw, hcl, ← hcs]
  rw [← hw] at hcl
  obtain ⟨r, h1, h2, h3, h4⟩ : ∃ r, Tensor.binop (fun x c : ℝ => logisticOf c x) v0
      (if ss.length = 1 then ⟨[], (θ "capacity").data⟩ else θ "capacity") = .ok r ∧
      r.shape = [ss.length, fh.length, 1] ∧ r.WF ∧ ∀ i j (hi : i < ss.length), j < fh.length →
        r.get? [i, j, 0] = some (logisticOf (w[i]'(by omega)) ((v0.get? [i, j, 0]).getD 0)) := by
    split
    · rename_i h1
      match w, hcl with
      | [c], _ =>
        rw [← hw]
        obtain ⟨r, k1, k2, k3, k4⟩ := binop_scalar_right (fun x c : ℝ => logisticOf c x) (a := v0) c
        refine ⟨r, k1, k2.trans hsh, k3, fun i j hi hj => ?_⟩
        rw [k4 [i, j, 0] (by rw [hsh]; exact ⟨hi, hj, Nat.one_pos, trivial⟩)]
        have : i = 0 := by omega
        subst this
        rfl
      | [], h => exact absurd (h.trans h1) (by simp)
      | _ :: _ :: _, h => exact absurd (h.trans h1) (by simp)
    · rw [hcap]
      exact binop_series hsh hcl
  rw [h1] at hv
  cases hv
  refine eq_panelOf_of_get? h3 h2 ?_
  intro i s j t hi hj
  obtain ⟨hil, rfl⟩ := List.getElem?_eq_some_iff.1 hi
  obtain ⟨hjl, -⟩ := List.getElem?_eq_some_iff.1 hj
  rw [h4 i j hil hjl, hcell i _ j t hi hj]
  unfold panelLogisticAt
  rw [hnd.idxOf_getElem i hil, ← hw, List.getD_eq_getElem _ _ (by omega)]
  rfl

/-- **C74**, logistic trend over several series: computed cell by cell, for each series with its own capacity. -/
theorem C74_logistic {days : τ → ℝ} {suggest : List ℝ → Tensor ℝ → PyM (List ℝ × List ℝ)}
    {p : PiecewiseParams ℝ τ} {e : EffectObj _ _ _ τ V _ ℝ}
    (hc : e.cls = piecewiseClass days suggest logisticPredict p)
    {st : PiecewiseState ℝ τ} (hst : e.st.2 = some st) {ss : List (List String)} (hnd : ss.Nodup)
    (hser : st.series = some ss) (hcps : st.cps.length = ss.length)
    (hns : st.time.nSeries = ss.length) (hsq : ss.length ≠ 1 ∨ p.squeeze = false) :
    PanelTrend e (LogisticSites st.cps) ss (panelLogisticAt days st ss) :=
  fun θ x fh d v hθ hx ht hv =>
    logistic_cells hc hst hnd hser hcps hns hsq θ x fh d v hθ hx.someSeries hx.horizon ht hv

/-- **C74**: a logistic trend fitted on a panel, with the same interval and range for all series, is computed cell
by cell. -/
theorem C74_logistic_fitted {days : τ → ℝ} {suggest : List ℝ → Tensor ℝ → PyM (List ℝ × List ℝ)}
    {p : PiecewiseParams ℝ τ} {i r : ℝ} (hi : p.interval = .scalar i) (hr : p.range = .scalar r)
    {y : Frame String τ ℝ} (hy : 1 < y.nlevels) (hmany : y.series.length ≠ 1 ∨ p.squeeze = false)
    {X : Option (Frame String τ V)} {sc : Scale ℝ} {e : EffectObj _ _ _ τ V _ ℝ}
    (h : ((piecewiseClass (V := V) days suggest logisticPredict p).new).fit y X sc = .ok e) :
    ∃ st, e.st.2 = some st ∧ st.cps.length = y.series.length ∧
      PanelTrend e (LogisticSites st.cps) y.series (panelLogisticAt days st y.series) := by
  obtain ⟨hcls, s, hs, hfit⟩ : e.cls = piecewiseClass days suggest logisticPredict p ∧
      ∃ s, e.st.2 = some s ∧ piecewiseFit days suggest p y = .ok s := by
    unfold EffectObj.fit baseFit at h
    rw [if_neg (by rintro ⟨h1, -⟩; cases h1)] at h
    simp only [bind, Except.bind, EffectClass.new] at h
    cases hp : piecewiseFit days suggest p y with
    | error err =>
      simp only [piecewiseClass, hp, Except.map] at h
      cases h
    | ok s =>
      simp only [piecewiseClass, hp, Except.map] at h
      cases h
      exact ⟨rfl, s, rfl, rfl⟩
  obtain ⟨tt, cps, htt, hcps, hs1, hs2, hs3⟩ : ∃ tt cps, trendTimeFit days y = .ok tt ∧
      setupChangepoints ((unique y.times).map (tt.scaled days)) tt.nSeries p.interval p.range
        = .ok cps ∧ s.cps = cps ∧ s.series = some y.series ∧ s.time = tt := by
    unfold piecewiseFit at hfit
    simp only [bind, Except.bind] at hfit
    split at hfit
    · cases hfit
    rename_i tt htt
    split at hfit
    · cases hfit
    rename_i cps hcps
    split at hfit
    · cases hfit
    split at hfit
    · cases hfit
    split at hfit
    · cases hfit
    cases hfit
    exact ⟨tt, cps, htt, hcps, rfl, by simp [hy], rfl⟩
  have hns : tt.nSeries = y.series.length := by
    unfold trendTimeFit at htt
    split at htt
    · cases htt
    · simp only at htt
      split at htt
      · cases htt
      · cases htt
        simp [nSeriesOf, hy]
  rw [hi, hr, hns] at hcps
  have hl := changepointsAll_length hcps
  simp only [ScalarOr.toList, List.length_zip, List.length_replicate, Nat.min_self] at hl
  rw [← hs1] at hl
  exact ⟨s, hs, hl, C74_logistic hcls hs (nodup_unique _) hs2 hl (by rw [hs3, hns]) hmany⟩

/-- **C74**, hierarchical forecaster with a logistic trend: with the same parameters the mean of a bottom series at a
date is determined by the row of `X` for that series and date, and lies where its own capacity and trend put it. -/
theorem C74_logistic_forecaster {days : τ → ℝ}
    {suggest : List ℝ → Tensor ℝ → PyM (List ℝ × List ℝ)} {p : PiecewiseParams ℝ τ} {iv rg : ℝ}
    (hiv : p.interval = .scalar iv) (hrg : p.range = .scalar rg)
    {cfg : HierConfig (Option (PiecewiseState ℝ τ)) (Scale ℝ) τ (Tensor ℝ) ℝ}
    (htrend : cfg.trend = (piecewiseClass days suggest logisticPredict p).new)
    (hfeat : CellwiseFeatures cfg.features)
    (he : ∀ e ∈ cfg.effects, RowWiseClass e.effect.cls) (hd : RowWiseClass cfg.default.cls)
    (hn : (cfg.effects.map EffectSpec.name).Nodup)
    (hres : "exogenous_variables_effect" ∉ cfg.effects.map EffectSpec.name)
    (htr : "trend" ∉ cfg.effects.map EffectSpec.name)
    {y yB : Frame String τ ℝ} (hyB : locBottom (aggregate cfg.keep y) = .ok yB)
    (hlv : 1 < yB.nlevels) (hmany : yB.series.length ≠ 1 ∨ p.squeeze = false)
    {Xfit : Option (Frame String τ ℝ)}
    {m : HierFit (Option (PiecewiseState ℝ τ)) (Scale ℝ) τ (Tensor ℝ) ℝ}
    (hfit : hierFitData cfg y Xfit = .ok m) :
    ∃ st0, m.trend.st.2 = some st0 ∧ ∀ levels X X' x x' fh fh' td td' data data' θ st st',
      X.cols ≠ [] → X.cols = X'.cols → locBottom X = .ok x → locBottom X' = .ok x' →
      PanelIn x yB.series fh → PanelIn x' yB.series fh' →
      hierPredictData cfg m levels y (some X) fh = .ok (td, data) →
      hierPredictData cfg m levels y (some X') fh' = .ok (td', data') →
      LogisticSites st0.cps θ →
      computeMean (m.trend.cls.call m.trend.st) td data (callsOf m.objs) θ = .ok st →
      computeMean (m.trend.cls.call m.trend.st) td' data' (callsOf m.objs) θ = .ok st' →
      ∀ i j j' s t, yB.series[i]? = some s → fh[j]? = some t → fh'[j']? = some t →
        cellAt X s t = cellAt X' s t →
        ∃ v, st.mean.get? [i, j, 0] = some v ∧ st'.mean.get? [i, j', 0] = some v := by
  obtain ⟨yB', xf, hyB', -, htf, hfe, hobjs⟩ := hierFitData_all hfit
  rw [hyB] at hyB'
  cases hyB'
  rw [htrend] at htf
  obtain ⟨st0, hst0, -, hpt⟩ := C74_logistic_fitted hiv hrg hlv hmany htf
  obtain ⟨hn', htr'⟩ := C17_names hn hres htr hfe
  have hcls : ∀ fe ∈ m.fitted, RowWiseClass fe.effect.cls := by
    obtain ⟨fes, hf, -, hcase⟩ := fitEffects_ok.1 hfe
    have h1 : ∀ fe ∈ fes, RowWiseClass fe.effect.cls := by
      intro fe hfe
      obtain ⟨e, hmem, hfrom⟩ := exists_of_forall₂ hf hfe
      rw [(effectFit_ok hfrom.2.2).1]
      exact he e hmem
    rcases hcase with ⟨-, h⟩ | ⟨eff, -, h2, h⟩
    · rw [h]; exact h1
    · rw [h]
      intro fe hfe
      rcases List.mem_append.1 hfe with h3 | h3
      · exact h1 fe h3
      · rw [List.mem_singleton.1 h3]
        rw [(effectFit_ok h2).1]
        exact hd
  have hpe : ∀ fe ∈ m.fitted, ∃ f, PanelEffect fe.effect f := by
    intro fe hfe
    obtain ⟨h1, h2, mode, raw, ρ, h3, h4⟩ := hcls fe hfe
    exact ⟨_, C74_effect h1 h2 h3 h4⟩
  refine ⟨st0, hst0, ?_⟩
  intro levels X X' x x' fh fh' td td' data data' θ st st' hX hc hb hb' hx hx' h1 h2 hθ hm hm' i j j'
    s t hi hj hj' hcell
  exact C74_own_rows hfeat hpt hpe hn' htr' hobjs hX hc hb hb' hx hx' h1 h2 hθ hm hm' hi hj hj' hcell

omit [LinearOrder τ] in
/-- **C74**: where a series has a positive capacity, its trend lies strictly between 0 and that capacity, whatever the
capacities of the other series. -/
theorem C74_logistic_bounds {days : τ → ℝ} {st : PiecewiseState ℝ τ} {ss : List (List String)} {θ : SiteEnv ℝ}
    {s : List String} {c : ℝ} (hc : (θ "capacity").data[ss.idxOf s]? = some c) (hpos : 0 < c) (t : τ) :
    0 < panelLogisticAt days st ss θ s t ∧ panelLogisticAt days st ss θ s t < c := by
  have : (θ "capacity").data.getD (ss.idxOf s) 0 = c := by
    rw [List.getD_eq_getElem?_getD, hc]
    rfl
  unfold panelLogisticAt
  rw [this]
  exact ⟨logisticOf_pos hpos, logisticOf_lt hpos⟩

/-- Whether fitting succeeds does not depend on how the trend is evaluated. -/
theorem hierFit_predict {days : τ → ℝ} {suggest : List ℝ → Tensor ℝ → PyM (List ℝ × List ℝ)}
    {f : Bool → Nat → EffectCall (Tensor ℝ) ℝ} (g : Bool → Nat → EffectCall (Tensor ℝ) ℝ) {p : PiecewiseParams ℝ τ}
    {cfg : HierConfig (Option (PiecewiseState ℝ τ)) (Scale ℝ) τ (Tensor ℝ) ℝ}
    (htrend : cfg.trend = (piecewiseClass days suggest f p).new) {y : Frame String τ ℝ}
    {X : Option (Frame String τ ℝ)} {m : HierFit (Option (PiecewiseState ℝ τ)) (Scale ℝ) τ (Tensor ℝ) ℝ}
    (h : hierFitData cfg y X = .ok m) :
    hierFitData { cfg with trend := (piecewiseClass days suggest g p).new } y X
      = .ok { m with trend := ⟨piecewiseClass days suggest g p, m.trend.made, m.trend.st⟩ } := by
  unfold hierFitData at h ⊢
  simp only [bind, Except.bind] at h ⊢
  split at h
  · cases h
  rename_i yB hyB
  split at h
  · cases h
  rename_i ya hya
  split at h
  · cases h
  rename_i ex hex
  have hex' : hierExog { cfg with trend := (piecewiseClass days suggest g p).new } (aggregate cfg.keep y) X = .ok ex := hex
  split at h
  · cases h
  rename_i tr htr
  rw [htrend] at htr
  have htr' : ((piecewiseClass days suggest g p).new).fit yB (some ex.2) cfg.scale
      = .ok ⟨piecewiseClass days suggest g p, tr.made, tr.st⟩ := by
    unfold EffectObj.fit baseFit at htr ⊢
    rw [if_neg (by rintro ⟨h1, -⟩; cases h1)] at htr ⊢
    simp only [bind, Except.bind, EffectClass.new] at htr ⊢
    cases hp : piecewiseFit days suggest p yB with
    | error err =>
      simp only [piecewiseClass, hp, Except.map] at htr
      cases htr
    | ok s =>
      simp only [piecewiseClass, hp, Except.map] at htr ⊢
      cases htr
      rfl
  have hcls : tr.cls = piecewiseClass days suggest f p := (effectFit_ok htr).1
  split at h
  · cases h
  rename_i td htd
  have htd' : (⟨piecewiseClass days suggest g p, tr.made, tr.st⟩ : EffectObj _ _ _ τ ℝ _ ℝ).transform (some ex.2)
      (unique y.times) = .ok td := by
    rw [← htd]
    unfold EffectObj.transform
    rw [hcls]
    rfl
  split at h
  · cases h
  rename_i fw hfw
  split at h
  · cases h
  rename_i data hdata
  split at h
  · cases h
  rename_i objs hobjs
  cases h
  simp only [hex', htr', htd', hfw, hdata, hobjs, pure, Except.pure]

end

/-! Example: two shops with logistic trends; the capacities are 3 and 10. -/

/-- The configuration `exCfg113` with logistic trends. -/
noncomputable def exCfg74L : HierConfig (Option (PiecewiseState ℝ ℤ)) (Scale ℝ) ℤ (Tensor ℝ) ℝ :=
  { exCfg113 with trend := (piecewiseClass (fun t : ℤ => (t : ℝ)) suggestLinear logisticPredict exP113).new }

/-- The fit succeeds, so the hypotheses of `C74_logistic_forecaster` can be met. -/
theorem exFit74L : ∃ m, hierFitData exCfg74L exY113 (some exX113) = .ok m := by
  obtain ⟨m, x, s, hm, -⟩ := hier_fits exValid113 exPanel113 exSeries113 exDates113
    (exExog113 (by simp) (by simp) (by simp)) (fun c _ _ => ⟨_, rfl⟩)
  exact ⟨_, hierFit_predict logisticPredict rfl hm⟩

/-- The trend of the second shop stays below its capacity 10, that of the first below 3. -/
example {st : PiecewiseState ℝ ℤ} {θ : SiteEnv ℝ} (h : (θ "capacity").data = [3, 10]) (t : ℤ) :
    panelLogisticAt (fun t : ℤ => (t : ℝ)) st [["p"], ["q"]] θ ["p"] t < 3 ∧
    panelLogisticAt (fun t : ℤ => (t : ℝ)) st [["p"], ["q"]] θ ["q"] t < 10 :=
  ⟨(C74_logistic_bounds (c := 3) (by rw [h]; rfl) (by norm_num) t).2,
    (C74_logistic_bounds (c := 10) (by rw [h]; rfl) (by norm_num) t).2⟩

/-- Sites that fit a panel of two series with one changepoint each. -/
example : ∃ θ : SiteEnv ℝ, LogisticSites [[0], [1]] θ :=
  ⟨fun s => if s = "capacity" then ⟨[2, 1, 1], [3, 10]⟩ else ⟨[2], [1, 1]⟩, ⟨by simp, by simp⟩, by simp, by simp⟩

end PV
