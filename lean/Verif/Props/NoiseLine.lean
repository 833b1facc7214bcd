import Verif.Props.NoiseLimit
import Verif.Props.PanelStableLine

/-!
# C134 for the default trend: with much noise the best fit is the least squares line at the first date
-/

open Filter Topology

namespace PV

section
variable {τ : Type} [LinearOrder τ]
variable {position : τ → ℤ} {compile : String → PyM (String → Bool)}
  {order : List String → List String} {days : τ → ℝ}
  {p : PiecewiseParams ℝ τ} {kind : String → EffectKind}
  {cfg : UniConfig (UsualAttrs τ) (Scale ℝ) τ ℝ (AnyData ℝ) ℝ} {y : Frame String τ ℝ} {c : String}
  {X : Option (Frame String τ ℝ)} {x : Frame String τ ℝ}
  {m : UniFit (UsualAttrs τ) (Scale ℝ) τ ℝ (AnyData ℝ) ℝ}

/-- **C134** for the default trend: as the noise level grows without bound, the best fit tends, at every date, to the
value that the least squares line through the training data has at the first date. -/
theorem C134_line (hU : Usual position compile order days suggestLinear p kind cfg) {pos : τ → ℝ}
    (hp : p.detrend = some fun y => .ok (fittedLines pos y)) (hd : cfg.discrete = false) (hmono : StrictMono days)
    (hT : Training cfg y c X x) (hwf : y.WF) (hfit : uniFitData cfg y X = .ok m) {b : ℝ} (hb : p.priorScale = .scalar b)
    (hw : ∀ n ss mode s, kind n = .seasonal ss mode s → waves ss ≠ []) {sd : String → ℝ}
    (hk : ∀ fe ∈ usedEffects kind m, (kind fe.name).prior = normalLP 0 (sd fe.name))
    {s : PiecewiseState ℝ τ} {cs : List ℝ} (hs : m.trend.st.2 = .piecewise (some s)) (hcs : s.cps = [cs])
    {ns scale os : ℝ} (hb0 : 0 < b) (hos : os ≠ 0) (hsd : ∀ n, sd n ≠ 0) {σ : ℕ → ℝ} (hσ : ∀ k, σ k ≠ 0)
    (hl : Tendsto σ atTop atTop) {θ : ℕ → SiteEnv ℝ} {L : ℕ → ℝ}
    (hθ : ∀ k, BestIn kind .normal cs ns scale os (· = σ k) m (θ k) (L k)) {r : Row String τ ℝ}
    (hr : y.rows.head? = some r) (t : τ) :
    Tendsto (fun k => usualMean position kind days s cs y x m (θ k) t) atTop
      (𝓝 (lineAt (y.rows.map fun r => (pos r.time, r.val c)) (pos r.time))) := by
  refine C134_large hU (.inr ⟨pos, hp⟩) hT hfit hb hw hk hs hcs ?_ hb0 hos hsd hσ hl hθ t
  refine line_location hp (uniFit_piecewise hU hd hfit hs) hT.flat hT.column hwf ?_ hr
  rw [Frame.times, List.map_map]
  exact List.pairwise_map.2 (hT.sorted.imp fun h => hmono h)

end

section
variable {τ : Type} [LinearOrder τ] {days : τ → ℝ} {p : PiecewiseParams ℝ τ}
  {cfg : HierConfig (Option (PiecewiseState ℝ τ)) (Scale ℝ) τ (Tensor ℝ) ℝ} {mode : String → String}

/-- **C134** for a panel with the default trend: as the noise levels grow without bound in fixed proportions, the
best fit of every series tends, at every date, to its own least squares line at the first date. -/
theorem C134_panel_line (hV : ValidHier days p cfg) {pos : τ → ℝ}
    (hp : p.detrend = some fun y => .ok (fittedLines pos y)) (hM : Modes mode cfg) {y : Frame String τ ℝ}
    (hy : RegularPanel y) {c : String} (hc : y.cols = [c]) {obs : List String → τ → ℝ} (hobs : Observed y c obs)
    {ss : List (List String)} (hss : SeriesOf y ss) (h2 : 2 ≤ ss.length) {ts : List τ} (hts : DatesOf y ts)
    {b : ℝ} (hb : p.priorScale = .scalar b) {X : Option (Frame String τ ℝ)} (hX : GivenExog X ss ts)
    (hcomp : ∀ c ∈ givenCols X, c ∉ cfg.shared → ∃ q, cfg.compile c = .ok q)
    {m : HierFit (Option (PiecewiseState ℝ τ)) (Scale ℝ) τ (Tensor ℝ) ℝ} (hfit : hierFitData cfg y X = .ok m)
    {s : PiecewiseState ℝ τ} (hs : m.trend.st.2 = some s) {x : Frame String τ ℝ}
    (hex : hierExog cfg (aggregate cfg.keep y) X = .ok (m.expand, x))
    {lkj : Nat → ℝ → Tensor ℝ → ℝ} {ns conc os : ℝ} {sd : String → ℝ}
    {σ : Fin ss.length → ℝ} {C : Matrix (Fin ss.length) (Fin ss.length) ℝ}
    (hb0 : 0 < b) (hos : os ≠ 0) (hsd : ∀ n, sd n ≠ 0) {r : ℕ → ℝ} (hr : ∀ k, 0 < r k)
    (hl : Tendsto r atTop atTop) {θ : ℕ → SiteEnv ℝ} (hN : ∀ k, NoiseOf (fun i => r k * σ i) C (θ k))
    (hθ : ∀ k, BestPanel lkj ns conc os (fun n => normalLP 0 (sd n)) s m (θ k)) {t₀ : τ} (ht : ts.head? = some t₀)
    (i : Fin ss.length) (t : τ) :
    Tendsto (fun k => panelMean days mode s ss (kept m.fitted) x (θ k) (ss.get i) t) atTop
      (𝓝 (lineAt (ts.map fun t => (pos t, obs (ss.get i) t)) (pos t₀))) := by
  have h := C134_panel_large hV hM hy hc hobs hss h2 hts hb hX hcomp hfit hs hex hb0 hos hsd hr hl hN hθ i t
  rw [panel_line hV hp hy hc hobs hss hts hX hcomp hfit hs ht] at h
  simpa [List.getD_eq_getElem?_getD] using h

end

/-! ## Cases -/

/-- The observations 1, 3 and 4: best fits for the noise levels 1, 2, 3, … exist, and tend to 7/6, the value of the
least squares line on day 0. -/
example : ∃ m s cs, ∃ θ : ℕ → SiteEnv ℝ, ∃ L : ℕ → ℝ, uniFitData exCfg123 exY85 (some exX97) = .ok m ∧
    (∀ k : ℕ, BestIn exKind96 .normal cs (1 / 20) 1 (1 / 10) (· = ((k : ℝ) + 1)) m (θ k) (L k)) ∧
    ∀ t, Tendsto (fun k => usualMean id exKind96 (fun n : ℤ => (n : ℝ)) s cs exY85 exX97 m (θ k) t) atTop
      (𝓝 (7 / 6)) := by
  have hmono : StrictMono fun n : ℤ => (n : ℝ) := fun _ _ h => Int.cast_lt.2 h
  obtain ⟨m, hm⟩ := C98_fits exUsual123 exValid123d hmono exTraining123d (by simp [exY85]) (by rintro _ ⟨⟩ a ha; exact ha)
  obtain ⟨s, cs, hs, hcs, -⟩ := usual_coords exUsual123 exTraining123d hm (b := 2) rfl exWaves123
  have hpc : ∀ n, Continuous (exKind96 n).prior := fun n => by
    rw [exPrior125]
    exact continuous_normalLP _ _
  have hpt : ∀ n, Tendsto (exKind96 n).prior (cocompact ℝ) atBot := fun n => by
    rw [exPrior125]
    exact tendsto_normalLP _ (by unfold exSd125; split <;> norm_num)
  have hbest := fun σ => bestIn_exists exUsual123 exValid123d.plain exTraining123d hm (b := 2) rfl (by norm_num) exWaves123
    hpc hpt hs hcs (1 / 20) 1 σ (os := 1 / 10) (by norm_num)
  choose F G hFG using hbest
  refine ⟨m, s, cs, _, _, hm, fun k => hFG _, fun t => ?_⟩
  have h := C134_line exUsual123 rfl rfl hmono exTraining123d
    (by intro r hr; simp [exY85] at hr ⊢; rcases hr with rfl | rfl | rfl <;> rfl) hm (b := 2) rfl exWaves123
    (sd := exSd125) (fun fe _ => exPrior125 fe.name) hs hcs (by norm_num) (os := 1 / 10) (by norm_num)
    (by intro n; unfold exSd125; split <;> norm_num) (σ := fun k => (k : ℝ) + 1) (fun k => by positivity)
    (tendsto_natCast_atTop_atTop.atTop_add tendsto_const_nhds) (fun k => hFG _) (r := ⟨[], 0, fun _ => 1⟩) rfl t
  have hv : lineAt (exY85.rows.map fun r => ((r.time : ℝ), r.val "y")) (((0 : ℤ)) : ℝ) = 7 / 6 := by
    norm_num [lineAt, exY85]
  rw [hv] at h
  exact h

/-- The same for the two series of a panel. -/
example : ∃ m s x, ∃ θ : ℕ → SiteEnv ℝ, hierFitData exCfg133 exY113 (some exX113) = .ok m ∧
    (∀ k : ℕ, NoiseOf (fun i => ((k : ℝ) + 1) * ![1, 2] i) exL46 (θ k)) ∧
    (∀ k : ℕ, BestPanel (fun _ _ _ => 0) 1 1 (1 / 10) (fun _ => normalLP 0 2) s m (θ k)) ∧
    ∀ (i : Fin 2) (t : ℤ), Tendsto (fun k => panelMean (fun t : ℤ => (t : ℝ)) (fun _ => "additive") s
      [["p"], ["q"]] (kept m.fitted) x (θ k) ([["p"], ["q"]].get i) t) atTop
      (𝓝 (lineAt ([0, 1].map fun t : ℤ => ((t : ℝ), cellAt exY113 ([["p"], ["q"]].get i) t "y")) ((0 : ℤ) : ℝ))) := by
  have hX := exExog113 (ts := [0, 1]) (by simp) (by simp) (by simp)
  have hc : ∀ c ∈ givenCols (some exX113), c ∉ exCfg133.shared → ∃ q, exCfg133.compile c = .ok q :=
    fun _ _ _ => ⟨_, rfl⟩
  have k1 : ∀ r : ℝ, VectorSite (n := 2) ⟨[2], [r, r * 2]⟩ (fun i => r * ![1, 2] i) := fun r =>
    ⟨rfl, fun i => by fin_cases i <;> simp⟩
  have k2 : ∀ r : ℝ, 0 < r → ∀ i, (0 : ℝ) < r * ![1, 2] i := fun r hr i => by fin_cases i <;> simp [hr]
  have k3 : MatrixSite (exθ90 "corr_matrix") exL46 := ⟨rfl, fun i j => by fin_cases i <;> fin_cases j <;> rfl⟩
  have hobs : Observed exY113 "y" fun a t => cellAt exY113 a t "y" :=
    fun r hr _ => cellAt_of_mem exPanel113.ordered hr (by simp [exY113])
  obtain ⟨m, s, h1, hs, h⟩ := C114_exists exValid133 exModes133 exPanel113 exSeries113 (by simp) exDates113
    (b := 1 / 10) rfl (by norm_num) hX hc
  have hbest := fun k : ℕ => h (fun _ _ _ => 0) 1 1 (1 / 10) (fun _ => normalLP 0 2) (by norm_num)
    (fun _ => continuous_normalLP 0 2) (fun _ => tendsto_normalLP 0 two_ne_zero)
    ⟨[2], [((k : ℝ) + 1), ((k : ℝ) + 1) * 2]⟩ (exθ90 "corr_matrix") (fun i => ((k : ℝ) + 1) * ![1, 2] i) exL46 rfl (k1 _)
    (k2 _ (by positivity)) k3 exL46_factor
  choose θ hstd hcorr hθ using hbest
  have hN : ∀ k : ℕ, NoiseOf (n := 2) (fun i => ((k : ℝ) + 1) * ![1, 2] i) exL46 (θ k) := fun k =>
    ⟨by rw [hstd]; rfl, by rw [hstd]; exact k1 _, k2 _ (by positivity), by rw [hcorr]; exact k3, exL46_factor⟩
  obtain ⟨x, s', hex, h', -⟩ := hier_posterior exValid133 exModes133 exPanel113 rfl hobs exSeries113 (by simp) exDates113
    trivial hX hc h1
  exact ⟨m, s, x, θ, h1, hN, hθ, fun i t => C134_panel_line exValid133 rfl exModes133 exPanel113 rfl hobs exSeries113
    (by simp) exDates113 (b := 1 / 10) rfl hX hc h1 hs hex (by norm_num) (by norm_num) (sd := fun _ => 2)
    (fun _ => two_ne_zero) (r := fun k => (k : ℝ) + 1) (fun k => by positivity)
    (tendsto_natCast_atTop_atTop.atTop_add tendsto_const_nhds) hN hθ (t₀ := 0) rfl i t⟩

end PV
