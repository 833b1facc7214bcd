import Verif.Props.PanelStable
import Verif.Props.StableLine

/-!
# C133 for the default trend

The offsets are centred on the least squares lines through the series, which move by no more than the data.
-/

open Matrix

namespace PV
noncomputable section

variable {τ : Type} [LinearOrder τ]
variable {days : τ → ℝ} {p : PiecewiseParams ℝ τ}
  {cfg : HierConfig (Option (PiecewiseState ℝ τ)) (Scale ℝ) τ (Tensor ℝ) ℝ}

/-- The prior of the offset of a series is centred on its least squares line at the first date. -/
theorem panel_line (hV : ValidHier days p cfg) {pos : τ → ℝ}
    (hp : p.detrend = some fun y => .ok (fittedLines pos y)) {y : Frame String τ ℝ}
    (hy : RegularPanel y) {c : String} (hc : y.cols = [c]) {obs : List String → τ → ℝ} (hobs : Observed y c obs)
    {ss : List (List String)} (hss : SeriesOf y ss) {ts : List τ} (hts : DatesOf y ts)
    {X : Option (Frame String τ ℝ)} (hX : GivenExog X ss ts)
    (hcomp : ∀ c ∈ givenCols X, c ∉ cfg.shared → ∃ q, cfg.compile c = .ok q)
    {m : HierFit (Option (PiecewiseState ℝ τ)) (Scale ℝ) τ (Tensor ℝ) ℝ} (hfit : hierFitData cfg y X = .ok m)
    {s : PiecewiseState ℝ τ} (hs : m.trend.st.2 = some s) {t₀ : τ} (ht : ts.head? = some t₀) :
    s.offsetLoc = ss.map fun a => lineAt (ts.map fun t => (pos t, obs a t)) (pos t₀) := by
  obtain ⟨m', x, s', hfit', h, yB, hloc, hB, hser, hya, hsh, hw, hpf, hsing, hex, -⟩ := hier_fits hV hy hss hts hX hcomp
  rw [hfit] at hfit'
  cases hfit'
  have := h.state
  rw [hs] at this
  cases this
  have hcB : yB.cols = [c] := hB.cols.trans hc
  have hwB : yB.WF := fun r hr => by rw [hB.nlevels]; exact hy.wf r (hB.given r hr).1
  obtain ⟨h1, h2⟩ := offset_is_first (y' := fittedLines pos yB) hpf (by unfold detrended; rw [hp])
    (fittedLines_index pos yB) rfl hcB hwB (by
      rw [hB.dates]
      exact List.pairwise_map.2 (hts.sorted.imp fun h => hV.dates h))
  rw [hser] at h1 h2
  refine List.ext_getElem? fun i => ?_
  by_cases hi : i < ss.length
  · have ha : ss[i]? = some ss[i] := List.getElem?_eq_getElem hi
    have hin : ss[i] ∈ yB.series := by rw [hser]; exact List.getElem_mem hi
    have hrows : (yB.rowsOf ss[i]).map Row.time = ts := by
      have h1 := times_filtered (l := yB.rowsOf ss[i]) (rowsOf_sorted hB.panel.sorted ss[i]) hB.panel.horizon
        (fun t ht => by
          obtain ⟨r', hr', hsid, htm⟩ := hB.panel.covers ss[i] hin t ht
          exact ⟨r', List.mem_filter.2 ⟨hr', by simp [hsid]⟩, htm⟩)
      rwa [List.filter_eq_self.2 fun r hr => ?_] at h1
      have : r.time ∈ ts := by
        rw [← hB.dates, mem_unique]
        exact List.mem_map.2 ⟨r, (List.mem_filter.1 hr).1, rfl⟩
      simpa using this
    have hpts : pointsOf pos yB ss[i] c = ts.map fun t => (pos t, obs ss[i] t) := by
      conv_rhs => rw [← hrows, List.map_map]
      unfold pointsOf
      refine List.map_congr_left fun r hr => ?_
      obtain ⟨h1, h2⟩ := List.mem_filter.1 hr
      obtain ⟨h3, h4⟩ := hB.given r h1
      have h5 : r.sid = ss[i] := by simpa using h2
      simp only [Function.comp_apply]
      rw [← h5, hobs r h3 h4]
    have hro : (fittedLines pos yB).rowsOf ss[i] = (yB.rowsOf ss[i]).map fun r => ⟨r.sid, r.time, fun c =>
        r.val c - (r.val c - lineAt (pointsOf pos yB r.sid c) (pos r.time))⟩ := by
      unfold Frame.rowsOf fittedLines
      simp only
      rw [List.filter_map]
      rfl
    cases hq : yB.rowsOf ss[i] with
    | nil =>
      rw [hq] at hrows
      rw [← hrows] at ht
      cases ht
    | cons r rs =>
      have hrt : r.time = t₀ := by
        rw [hq] at hrows
        rw [← hrows] at ht
        exact Option.some.inj ht
      have hsid : r.sid = ss[i] := by
        have : r ∈ yB.rowsOf ss[i] := by rw [hq]; exact List.mem_cons_self ..
        simpa using (List.mem_filter.1 this).2
      rw [h2 i _ _ ha (by rw [hro, hq]; rfl), List.getElem?_map, ha]
      simp only [sub_sub_cancel, Option.map_some, hsid, hpts, hrt]
  · rw [List.getElem?_eq_none (by omega), List.getElem?_eq_none (by simp; omega)]

/-- **C133** for the default trend: the fitted values and offsets of a panel change by no more than the
observations, which count a second time with the precision of the offsets. -/
theorem C133_line (hV : ValidHier days p cfg) {pos : τ → ℝ}
    (hp : p.detrend = some fun y => .ok (fittedLines pos y)) (hM : Modes (fun _ => "additive") cfg)
    {ss : List (List String)} (h2 : 2 ≤ ss.length) {ts : List τ} {y y' : Frame String τ ℝ} {c c' : String}
    {obs obs' : List String → τ → ℝ} (H : TwoPanels ss ts y y' c c' obs obs')
    {b : ℝ} (hb : p.priorScale = .scalar b) (hb0 : 0 ≤ b) {X : Option (Frame String τ ℝ)} (hX : GivenExog X ss ts)
    (hcomp : ∀ c ∈ givenCols X, c ∉ cfg.shared → ∃ q, cfg.compile c = .ok q)
    {m m' : HierFit (Option (PiecewiseState ℝ τ)) (Scale ℝ) τ (Tensor ℝ) ℝ} (hfit : hierFitData cfg y X = .ok m)
    (hfit' : hierFitData cfg y' X = .ok m')
    {s s' : PiecewiseState ℝ τ} (hs : m.trend.st.2 = some s) (hs' : m'.trend.st.2 = some s')
    {x x' : Frame String τ ℝ} (hex : hierExog cfg (aggregate cfg.keep y) X = .ok (m.expand, x))
    (hex' : hierExog cfg (aggregate cfg.keep y') X = .ok (m'.expand, x'))
    {t₀ : τ} (ht : ts.head? = some t₀)
    {lkj : Nat → ℝ → Tensor ℝ → ℝ} {ns conc os : ℝ} {sd : String → ℝ}
    {σ : Fin ss.length → ℝ} {C : Matrix (Fin ss.length) (Fin ss.length) ℝ} {θ θ' : SiteEnv ℝ}
    (hN : NoiseOf σ C θ) (hθ : BestPanel lkj ns conc os (fun n => normalLP 0 (sd n)) s m θ)
    (hθ' : BestPanel lkj ns conc os (fun n => normalLP 0 (sd n)) s' m' θ')
    (e1 : θ' "std_observation" = θ "std_observation") (e2 : θ' "corr_matrix" = θ "corr_matrix") :
    weighedError (panelCovariance σ C) ts
        (fun i t => panelMean days (fun _ => "additive") s' ss (kept m'.fitted) x' θ' (ss.get i) t)
        (fun i t => panelMean days (fun _ => "additive") s ss (kept m.fitted) x θ (ss.get i) t)
      + squaredDistance (θ "offset").data (θ' "offset").data / os ^ 2
      + 2 * ((kept m.fitted).map fun fe =>
          squaredDistance (θ (fe.name ++ "/coefs")).data (θ' (fe.name ++ "/coefs")).data / sd fe.name ^ 2).sum
    ≤ weighedError (panelCovariance σ C) ts (fun i t => obs' (ss.get i) t) (fun i t => obs (ss.get i) t)
      + (ss.map fun a => (ts.map fun t => (obs' a t - obs a t) ^ 2).sum).sum / os ^ 2 := by
  have h := C133_centre_lipschitz hV hM h2 H hb hb0 hX hcomp hfit hfit' hs hs' hex hex' hN hθ hθ' e1 e2
    (panel_line hV hp H.panel H.column H.observed H.series H.dates hX hcomp hfit hs ht)
    (panel_line hV hp H.panel' H.column' H.observed' H.series' H.dates' hX hcomp hfit' hs' ht)
  refine h.trans (add_le_add le_rfl (div_le_div_of_nonneg_right (List.sum_le_sum fun a _ => ?_) (sq_nonneg os)))
  exact line_change (x := pos) (v := obs a) (v' := obs' a) (List.mem_of_mem_head? ht)

end

/-! ## A case: the panels of C133 with the default trend -/

noncomputable section

def exP133 : PiecewiseParams ℝ ℤ := { exP113 with detrend := some fun y => .ok (fittedLines (fun n : ℤ => (n : ℝ)) y) }

def exCfg133 : HierConfig (Option (PiecewiseState ℝ ℤ)) (Scale ℝ) ℤ (Tensor ℝ) ℝ :=
  { exCfg114 with trend := (piecewiseClass (fun t : ℤ => (t : ℝ)) suggestLinear piecewisePredict exP133).new }

theorem exValid133 : ValidHier (fun t : ℤ => (t : ℝ)) exP133 exCfg133 where
  dates := Int.cast_strictMono
  interval := exValid114.interval
  range := exValid114.range
  plain := .inr ⟨_, rfl⟩
  trend := rfl
  effects := exValid114.effects
  default := exValid114.default
  regexes := exValid114.regexes
  order := exValid114.order
  fitFeatures := rfl
  features := rfl
  nodup := exValid114.nodup
  reserved := exValid114.reserved
  notTrend := exValid114.notTrend

theorem exModes133 : Modes (fun _ => "additive") exCfg133 := ⟨exModes114.effects, exModes114.default⟩

/-- Both best fits exist, with the noise levels 1 and 2 and correlated noise, and the theorem applies to them. -/
example : ∃ m m' s s' x x' θ θ', hierFitData exCfg133 exY113 (some exX113) = .ok m ∧
    hierFitData exCfg133 exY133 (some exX113) = .ok m' ∧ NoiseOf ![1, 2] exL46 θ ∧
    BestPanel (fun _ _ _ => 0) 1 1 (1 / 10) (fun _ => normalLP 0 2) s m θ ∧
    BestPanel (fun _ _ _ => 0) 1 1 (1 / 10) (fun _ => normalLP 0 2) s' m' θ' ∧
    weighedError (panelCovariance ![1, 2] exL46) [0, 1]
        (fun i t => panelMean (fun t : ℤ => (t : ℝ)) (fun _ => "additive") s' [["p"], ["q"]] (kept m'.fitted) x' θ'
            ([["p"], ["q"]].get i) t)
        (fun i t => panelMean (fun t : ℤ => (t : ℝ)) (fun _ => "additive") s [["p"], ["q"]] (kept m.fitted) x θ
            ([["p"], ["q"]].get i) t)
      + squaredDistance (θ "offset").data (θ' "offset").data / (1 / 10) ^ 2
      + 2 * ((kept m.fitted).map fun fe =>
          squaredDistance (θ (fe.name ++ "/coefs")).data (θ' (fe.name ++ "/coefs")).data / 2 ^ 2).sum
      ≤ weighedError (panelCovariance ![1, 2] exL46) [0, 1] (fun i t => cellAt exY133 ([["p"], ["q"]].get i) t "y")
          (fun i t => cellAt exY113 ([["p"], ["q"]].get i) t "y")
        + ([["p"], ["q"]].map fun a => ([0, 1].map fun t =>
            (cellAt exY133 a t "y" - cellAt exY113 a t "y") ^ 2).sum).sum / (1 / 10) ^ 2 := by
  have hX := exExog113 (ts := [0, 1]) (by simp) (by simp) (by simp)
  have hc : ∀ c ∈ givenCols (some exX113), c ∉ exCfg133.shared → ∃ q, exCfg133.compile c = .ok q :=
    fun _ _ _ => ⟨_, rfl⟩
  have k1 : VectorSite (n := 2) ⟨[2], [1, 2]⟩ ![1, 2] := ⟨rfl, fun i => by fin_cases i <;> rfl⟩
  have k2 : ∀ i, (0 : ℝ) < ![1, 2] i := fun i => by fin_cases i <;> simp
  have k3 : MatrixSite (exθ90 "corr_matrix") exL46 := ⟨rfl, fun i j => by fin_cases i <;> fin_cases j <;> rfl⟩
  obtain ⟨m, s, h1, hs, h⟩ := C114_exists exValid133 exModes133 exPanel113 exSeries113 (by simp) exDates113
    (b := 1 / 10) rfl (by norm_num) hX hc
  obtain ⟨m', s', h1', hs', h'⟩ := C114_exists exValid133 exModes133 exPanel133 exSeries133 (by simp) exDates133
    (b := 1 / 10) rfl (by norm_num) hX hc
  obtain ⟨θ, h2, h3, h4⟩ := h (fun _ _ _ => 0) 1 1 (1 / 10) (fun _ => normalLP 0 2) (by norm_num)
    (fun _ => continuous_normalLP 0 2) (fun _ => tendsto_normalLP 0 two_ne_zero) ⟨[2], [1, 2]⟩
    (exθ90 "corr_matrix") ![1, 2] exL46 rfl k1 k2 k3 exL46_factor
  obtain ⟨θ', h2', h3', h4'⟩ := h' (fun _ _ _ => 0) 1 1 (1 / 10) (fun _ => normalLP 0 2) (by norm_num)
    (fun _ => continuous_normalLP 0 2) (fun _ => tendsto_normalLP 0 two_ne_zero) ⟨[2], [1, 2]⟩
    (exθ90 "corr_matrix") ![1, 2] exL46 rfl k1 k2 k3 exL46_factor
  have hN : NoiseOf (n := 2) ![1, 2] exL46 θ := ⟨by rw [h2]; rfl, by rw [h2]; exact k1, k2, by rw [h3]; exact k3, exL46_factor⟩
  obtain ⟨x, s₁, hex, -, -⟩ := hier_posterior exValid133 exModes133 exPanel113 rfl exTwo133.observed exSeries113 (by simp)
    exDates113 trivial hX hc h1
  obtain ⟨x', s₂, hex', -, -⟩ := hier_posterior exValid133 exModes133 exPanel133 rfl exTwo133.observed' exSeries133 (by simp)
    exDates133 trivial hX hc h1'
  exact ⟨m, m', s, s', x, x', θ, θ', h1, h1', hN, h4, h4',
    C133_line exValid133 rfl exModes133 (by simp) exTwo133 (b := 1 / 10) rfl (by norm_num) hX hc h1 h1' hs hs' hex hex'
      (t₀ := 0) rfl (sd := fun _ => 2) hN h4 h4' (h2'.trans h2.symm) (h3'.trans h3.symm)⟩

end
end PV
