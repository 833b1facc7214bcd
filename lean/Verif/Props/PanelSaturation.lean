import Verif.Props.PanelLogistic
import Verif.Props.PanelFuture
import Verif.Props.ShownSaturation

/-!
# C136 for panels with logistic trends

Beyond the history each series rises to its own capacity, falls to 0, or stays where it is, as its own
coefficients say.
-/

namespace PV
open Tensor

section
variable {τ : Type} [LinearOrder τ] {days : τ → ℝ} {suggest : List ℝ → Tensor ℝ → PyM (List ℝ × List ℝ)}
  {p : PiecewiseParams ℝ τ}

/-- What a fit of the trend on a panel leaves. -/
theorem panel_state {f : Bool → Nat → EffectCall (Tensor ℝ) ℝ} {y : Frame String τ ℝ} (hy : 1 < y.nlevels)
    {V : Type} {X : Option (Frame String τ V)} {sc : Scale ℝ} {e : EffectObj _ _ _ τ V _ ℝ}
    (h : ((piecewiseClass (V := V) days suggest f p).new).fit y X sc = .ok e) :
    e.cls = piecewiseClass days suggest f p ∧ ∃ s, e.st.2 = some s ∧ piecewiseFit days suggest p y = .ok s ∧
      s.series = some y.series := by
  unfold EffectObj.fit baseFit at h
  rw [if_neg (by rintro ⟨h1, -⟩; cases h1)] at h
  simp only [bind, Except.bind, EffectClass.new] at h
  cases hp : piecewiseFit days suggest p y with
  | error err =>
    simp only [piecewiseClass, hp, Except.map] at h
    cases h
  | ok s =>
    simp only [piecewiseClass, hp, Except.map] at h
    cases h
    refine ⟨rfl, s, rfl, rfl, ?_⟩
    obtain ⟨tt', cps, y', ya, s', h1, h2, -, -, -, rfl⟩ := piecewiseFit_inv hp
    simp [hy]

/-- The linear part of the trend of a series past the last training date, whatever suggests the initial values. -/
theorem state_far_line {y : Frame String τ ℝ} {s : PiecewiseState ℝ τ} (hpf : piecewiseFit days suggest p y = .ok s)
    (hlv : 1 < y.nlevels) {ds : List ℝ} (hd : HistoryDays days y ds) {i₀ r : ℝ} (hi : p.interval = .scalar i₀)
    (hi0 : 0 < i₀) (hrr : p.range = .scalar r) (hr0 : 0 < r) (hr : r ≤ (ds.length : ℝ) - 1)
    {θ : SiteEnv ℝ} (hθ : PanelSites s.cps θ) {a : List String} (ha : a ∈ y.series) {t t' : τ}
    (ht : ds.getLastD 0 ≤ days t) (ht' : ds.getLastD 0 ≤ days t') :
    panelTrendAt days s y.series θ a t'
      = panelTrendAt days s y.series θ a t + ownSlope s y.series θ a * ((days t' - days t) / dayStep ds) := by
  have hn : CountOfSeries y y.series.length := .inr ⟨hlv, rfl⟩
  obtain ⟨hl, hc⟩ := C34_fitted hpf hn hd (by rw [hi]; trivial) (by rw [hrr]; trivial)
    (by
      intro i _ v hv
      rw [hi] at hv
      simp only [ScalarOr.at, Option.some.injEq] at hv
      exact hv ▸ hi0)
  obtain ⟨v, r', limit, cs, -, hr', hlim, hcs, hcp⟩ := hc (y.series.idxOf a) (List.idxOf_lt_length_iff.2 ha)
  rw [hrr] at hr'
  simp only [ScalarOr.at, Option.some.injEq] at hr'
  subst hr'
  have htime : ∀ t, s.time.scaled days t = trendTimeOf ds (days t) := by
    obtain ⟨tt, htt, -, hsc, -⟩ := trendTimeFit_history hd hn
    obtain ⟨tt', cps, y', ya, s', h1, h2, -, -, -, rfl⟩ := piecewiseFit_inv hpf
    rw [htt] at h1
    cases h1
    exact hsc
  have h1N : (1 : ℝ) ≤ (ds.length : ℝ) - 1 := by
    have : (2 : ℝ) ≤ (ds.length : ℝ) := by exact_mod_cast hd.two
    linarith
  have hle : limit ≤ (ds.length : ℝ) - 1 := by
    rcases lt_or_ge r 1 with h1 | h1
    · rw [hlim.fraction hr0 h1]
      nlinarith
    · rw [hlim.count h1]
      exact hr
  have hpast : ∀ u, ds.getLastD 0 ≤ days u → ∀ c ∈ cs, c ≤ s.time.scaled days u := by
    intro u hu c hc
    obtain ⟨k, -, hk⟩ := (hcp.mem c).1 hc
    rw [htime]
    exact (hk.le.trans hle).trans (trendTimeOf_last hd.two hd.increasing hu)
  have hgc : s.cps.getD (y.series.idxOf a) [] = cs := by rw [List.getD_eq_getElem?_getD, hcs]; rfl
  have hlen : cs.length = ((seriesCoefs s.cps θ).getD (y.series.idxOf a) []).length := by
    symm
    refine splitLengths_length_at _ _ hθ.2 _ _ ?_
    rw [List.getElem?_map, hcs]
    rfl
  rw [← sub_eq_iff_eq_add']
  unfold panelTrendAt ownSlope
  rw [hgc, trendAt_diff fun c hc => iff_of_true (hpast t ht c hc) (hpast t' ht' c hc),
    C37_last_slope hlen (hpast t ht), htime, htime, trendTimeOf_diff]

/-- **C136**, logistic trends: the trend a hierarchical forecaster gives series `a` is one function of the date in all
forecast calls; it stays strictly between 0 and the capacity of that series, and past the last training date it
rises to this capacity if the coefficients of this series have a positive sum, falls to 0 if it is negative, and is
constant if it is 0, whatever the other series are. -/
theorem C136_saturates {cfg : HierConfig (Option (PiecewiseState ℝ τ)) (Scale ℝ) τ (Tensor ℝ) ℝ}
    (htrend : cfg.trend = (piecewiseClass days suggest logisticPredict p).new)
    (hn : (cfg.effects.map EffectSpec.name).Nodup)
    (hres : "exogenous_variables_effect" ∉ cfg.effects.map EffectSpec.name)
    (htr : "trend" ∉ cfg.effects.map EffectSpec.name)
    {y yB : Frame String τ ℝ} (hyB : locBottom (aggregate cfg.keep y) = .ok yB)
    (hlv : 1 < yB.nlevels) (hmany : yB.series.length ≠ 1 ∨ p.squeeze = false) {ds : List ℝ}
    (hd : HistoryDays days yB ds) {i₀ r : ℝ} (hi : p.interval = .scalar i₀)
    (hi0 : 0 < i₀) (hrr : p.range = .scalar r) (hr0 : 0 < r) (hr : r ≤ (ds.length : ℝ) - 1)
    {X : Option (Frame String τ ℝ)}
    {m : HierFit (Option (PiecewiseState ℝ τ)) (Scale ℝ) τ (Tensor ℝ) ℝ} (hfit : hierFitData cfg y X = .ok m) :
    ∃ s, m.trend.st.2 = some s ∧ s.cps.length = yB.series.length ∧ ∀ θ, LogisticSites s.cps θ →
      ∀ (k : Nat) (a : List String) (cap : ℝ), yB.series[k]? = some a → (θ "capacity").data[k]? = some cap → 0 < cap →
      ∃ T : τ → ℝ, (∀ t, 0 < T t ∧ T t < cap) ∧
        (∀ (l : List (List String)) (y₁ : Frame String τ ℝ) (X₁ : Option (Frame String τ ℝ)) (fh : List τ)
          (td : Transformed (Tensor ℝ)) (data : PyDict (Transformed (Tensor ℝ))) (st : MeanState ℝ),
          fh.Pairwise (· < ·) → hierPredictData cfg m l y₁ X₁ fh = .ok (td, data) →
          computeMean (m.trend.cls.call m.trend.st) td data (callsOf m.objs) θ = .ok st →
          ∀ (j : Nat) (t : τ), fh[j]? = some t →
            ∃ v, st.sites.get? "trend" = some v ∧ v.get? [k, j, 0] = some (T t)) ∧
        (0 < ownSlope s yB.series θ a →
          (∀ t t', ds.getLastD 0 ≤ days t → days t < days t' → T t < T t') ∧
          ∀ ε > 0, ∃ D, ∀ t, D ≤ days t → cap - ε < T t) ∧
        (ownSlope s yB.series θ a < 0 →
          (∀ t t', ds.getLastD 0 ≤ days t → days t < days t' → T t' < T t) ∧
          ∀ ε > 0, ∃ D, ∀ t, D ≤ days t → T t < ε) ∧
        (ownSlope s yB.series θ a = 0 →
          ∀ t t', ds.getLastD 0 ≤ days t → ds.getLastD 0 ≤ days t' → T t = T t') := by
  obtain ⟨yB', xf, hyB', -, htf, hfe, hobjs⟩ := hierFitData_all hfit
  rw [hyB] at hyB'
  cases hyB'
  rw [htrend] at htf
  obtain ⟨hcls, s, hs, hpf, hser⟩ := panel_state hlv htf
  obtain ⟨hn', htr'⟩ := C17_names hn hres htr hfe
  have hcnt : CountOfSeries yB yB.series.length := .inr ⟨hlv, rfl⟩
  have hl := (C34_fitted hpf hcnt hd (by rw [hi]; trivial) (by rw [hrr]; trivial)
    (by
      intro i _ v hv
      rw [hi] at hv
      simp only [ScalarOr.at, Option.some.injEq] at hv
      exact hv ▸ hi0)).1
  have hns : s.time.nSeries = yB.series.length := by
    obtain ⟨tt, htt, hns, -, -⟩ := trendTimeFit_history hd hcnt
    obtain ⟨tt', cps, y', ya, s', h1, h2, -, -, -, rfl⟩ := piecewiseFit_inv hpf
    rw [htt] at h1
    cases h1
    exact hns
  refine ⟨s, hs, hl, fun θ hθ k a cap hk hcap hpos => ?_⟩
  have ha : a ∈ yB.series := List.mem_of_getElem? hk
  obtain ⟨hkl, hka⟩ := List.getElem?_eq_some_iff.1 hk
  have hidx : yB.series.idxOf a = k := by
    rw [← hka]
    exact (nodup_unique _).idxOf_getElem k hkl
  have hT : ∀ t, panelLogisticAt days s yB.series θ a t = logisticOf cap (panelTrendAt days s yB.series θ a t) := by
    intro t
    unfold panelLogisticAt
    rw [hidx, List.getD_eq_getElem?_getD, hcap]
    rfl
  have hline : ∀ t t', ds.getLastD 0 ≤ days t → ds.getLastD 0 ≤ days t' → panelTrendAt days s yB.series θ a t'
      = panelTrendAt days s yB.series θ a t + ownSlope s yB.series θ a * ((days t' - days t) / dayStep ds) :=
    fun t t' ht ht' => state_far_line hpf hlv hd hi hi0 hrr hr0 hr hθ.1 ha ht ht'
  obtain ⟨hup, hdown⟩ := logistic_line (days := days) hpos (dayStep_pos hd.two hd.increasing) hline
  refine ⟨fun t => logisticOf cap (panelTrendAt days s yB.series θ a t),
    fun t => ⟨logisticOf_pos hpos, logisticOf_lt hpos⟩, ?_, hup, hdown, ?_⟩
  · intro l y₁ X₁ fh td data st hinc hp hm j t hj
    obtain ⟨z, htd, hdata⟩ : ∃ z, m.trend.transform (some z) fh = .ok td ∧ transformEffects m.fitted z fh = .ok data := by
      unfold hierPredictData at hp
      simp only [bind, Except.bind] at hp
      split at hp
      · cases hp
      split at hp
      · cases hp
      rename_i z hz
      split at hp
      · cases hp
      rename_i td' h1
      split at hp
      · cases hp
      rename_i data' h2
      cases hp
      exact ⟨z, h1, h2⟩
    obtain ⟨trv, vals, htv, hsites, -⟩ := C17_own_data hn' htr' hdata hobjs hm
    have hv := logistic_cells (ss := yB.series) hcls hs (nodup_unique _) hser hl hns hmany θ z fh td trv hθ
      (List.ne_nil_of_mem ha) hinc htd htv
    refine ⟨trv, by rw [hsites]; simp [PyDict.get?], ?_⟩
    rw [hv, panelOf_get? hk hj, hT]
  · intro h0 t t' ht ht'
    simp only
    rw [hline t t' ht ht', h0]
    simp

end

/-! Example: the two shops of `exCfg74L`, with capacities 3 and 10. -/

/-- Capacities 3 and 10, the other sites of the sizes the trend asks for. -/
noncomputable def exSites136 (n : Nat) : SiteEnv ℝ := fun s =>
  if s = "capacity" then ⟨[2, 1, 1], [3, 10]⟩
  else if s = "offset" then ⟨[2], [0, 0]⟩
  else ⟨[n], List.replicate n 1⟩

/-- The fit succeeds, there are sites as asked for, and the trend of the second shop stays below 10. -/
example : ∃ m s, hierFitData exCfg74L exY113 (some exX113) = .ok m ∧ m.trend.st.2 = some s ∧
    ∃ θ, LogisticSites s.cps θ ∧ ∃ T : ℤ → ℝ, (∀ t, 0 < T t ∧ T t < 10) ∧
      (0 < ownSlope s [["p"], ["q"]] θ ["q"] → ∀ ε > 0, ∃ D : ℝ, ∀ t : ℤ, D ≤ (t : ℝ) → 10 - ε < T t) := by
  obtain ⟨m0, x, s0, hm0, -, yB, hloc, hB, hser, -⟩ := hier_fits exValid113 exPanel113 exSeries113 exDates113
    (exExog113 (by simp) (by simp) (by simp)) (fun c _ _ => ⟨_, rfl⟩)
  have hm := hierFit_predict logisticPredict (cfg := exCfg113) rfl hm0
  have hd : HistoryDays (fun t : ℤ => (t : ℝ)) yB [0, 1] :=
    ⟨by rw [show unique (yB.rows.map Row.time) = [0, 1] from hB.dates]; simp, by simp, by simp⟩
  obtain ⟨s, hs, hl, h⟩ := C136_saturates (cfg := exCfg74L) (p := exP113) rfl (by simp [exCfg74L, exCfg113])
    (by simp [exCfg74L, exCfg113]) (by simp [exCfg74L, exCfg113]) (y := exY113) hloc
    (by rw [hB.nlevels]; decide) (.inr rfl) hd (i₀ := 1) rfl one_pos (r := 4 / 5) rfl (by norm_num)
    (by norm_num) hm
  have hl2 : s.cps.length = 2 := by rw [hl, hser]; rfl
  have hθ : LogisticSites s.cps (exSites136 (s.cps.map List.length).sum) :=
    ⟨⟨by simp [exSites136, hl2], by simp [exSites136]⟩, by simp [exSites136, hl2], by simp [exSites136, hl2]⟩
  obtain ⟨T, h1, -, h2, -⟩ := h _ hθ 1 ["q"] 10 (by rw [hser]; rfl) (by simp [exSites136]) (by norm_num)
  rw [hser] at h2
  exact ⟨_, s, hm, hs, _, hθ, T, h1, fun h0 => (h2 h0).2⟩

end PV
