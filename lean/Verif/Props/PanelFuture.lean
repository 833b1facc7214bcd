import Verif.Props.PanelForecast
import Verif.Props.FarFuture

/-!
# C136: beyond the history each series of a panel follows its own line

Past the last training date no changepoint is left, so the trend of each series of the hierarchical
forecaster continues along one line, whose slope is made of its own coefficients only.
-/

set_option linter.unusedSectionVars false

namespace PV
open Tensor

section
variable {τ : Type} [LinearOrder τ]

/-! ## Specification -/

/-- The slope per step with which the trend of series `a` ends: the sum of its own coefficients. -/
def ownSlope (s : PiecewiseState ℝ τ) (ss : List (List String)) (θ : SiteEnv ℝ) (a : List String) : ℝ :=
  ((seriesCoefs s.cps θ).getD (ss.idxOf a) []).sum

/-- The forecast of series `i` at position `j` of the horizon. -/
def panelMeanAt (st : MeanState ℝ) (i j : Nat) : Option ℝ := st.mean.get? [i, j, 0]

/-- Series `a` has the same regressors at `t` in `X₁` as at `t'` in `X₂`. -/
def SameRegressors (cols : List String) (X₁ X₂ : Option (Frame String τ ℝ)) (a : List String) (t t' : τ) : Prop :=
  ∀ c ∈ cols, givenValue X₁ a t c = givenValue X₂ a t' c

/-! ## Lemmas -/

theorem splitLengths_length_at : ∀ (ns : List Nat) (l : List ℝ), l.length = ns.sum → ∀ (i n : Nat),
    ns[i]? = some n → ((ns.splitLengths l).getD i []).length = n
  | [], l, _, i, n, h => by simp at h
  | k :: ns, l, hl, 0, n, h => by
    simp only [List.getElem?_cons_zero, Option.some.injEq] at h
    simp only [List.sum_cons] at hl
    simp [List.length_take, ← h]
    omega
  | k :: ns, l, hl, i + 1, n, h => by
    simp only [List.getElem?_cons_succ] at h
    simp only [List.sum_cons] at hl
    simp only [List.splitLengths_cons, List.getD_cons_succ]
    exact splitLengths_length_at ns (l.drop k) (by rw [List.length_drop]; omega) i n h

theorem trendTimeOf_last {ds : List ℝ} (h2 : 2 ≤ ds.length) (hinc : ds.Pairwise (· < ·)) {d : ℝ}
    (ht : ds.getLastD 0 ≤ d) : (ds.length : ℝ) - 1 ≤ trendTimeOf ds d := by
  unfold trendTimeOf
  match ds, h2 with
  | d :: e :: l, _ =>
    have hlt : d < (e :: l).getLastD d := (List.pairwise_cons.1 hinc).1 _ (getLastD_mem (by simp))
    have hg : (d :: e :: l).getLastD 0 = (e :: l).getLastD d := by simp only [List.getLastD_cons]
    rw [hg] at ht ⊢
    simp only [List.headD_cons]
    rw [le_div_iff₀ (sub_pos.2 hlt), mul_comm]
    have : (0 : ℝ) ≤ ((d :: e :: l).length : ℝ) - 1 := by
      simp only [List.length_cons, Nat.cast_add, Nat.cast_one]
      have : (0 : ℝ) ≤ (l.length : ℝ) := Nat.cast_nonneg _
      linarith
    gcongr

variable {days : τ → ℝ} {p : PiecewiseParams ℝ τ} {mode : String → String}
  {cfg : HierConfig (Option (PiecewiseState ℝ τ)) (Scale ℝ) τ (Tensor ℝ) ℝ}

/-- The trend of a series past the last training date. -/
theorem panel_far_line (hV : ValidHier days p cfg) {y : Frame String τ ℝ} (hy : RegularPanel y)
    {ss : List (List String)} (hss : SeriesOf y ss) {ts : List τ} (hts : DatesOf y ts)
    (hr : ∀ r, p.range = .scalar r → r ≤ (ts.length : ℝ) - 1) {X : Option (Frame String τ ℝ)}
    (hX : GivenExog X ss ts) (hcomp : ∀ c ∈ givenCols X, c ∉ cfg.shared → ∃ q, cfg.compile c = .ok q)
    {m : HierFit (Option (PiecewiseState ℝ τ)) (Scale ℝ) τ (Tensor ℝ) ℝ} (hfit : hierFitData cfg y X = .ok m)
    {s : PiecewiseState ℝ τ} (hs : m.trend.st.2 = some s) {θ : SiteEnv ℝ} (hθ : PanelSites s.cps θ)
    {a : List String} (ha : a ∈ ss) {t t' : τ} (ht : ∀ u ∈ ts, u ≤ t) (ht' : ∀ u ∈ ts, u ≤ t') :
    panelTrendAt days s ss θ a t' - panelTrendAt days s ss θ a t
      = ownSlope s ss θ a * ((days t' - days t) / dayStep (ts.map days)) := by
  obtain ⟨m', x, s', hfit', h, yB, -, hB, hser, -, -, -, hpf, -, -, -⟩ := hier_fits hV hy hss hts hX hcomp
  rw [hfit] at hfit'
  cases hfit'
  rw [h.state] at hs
  cases hs
  obtain ⟨i₀, hi, hi0⟩ := hV.interval
  obtain ⟨r, hrr, hr0⟩ := hV.range
  have hlv : 1 < yB.nlevels := by
    have := hy.levels
    rw [hB.nlevels]
    omega
  have hn : CountOfSeries yB ss.length := .inr ⟨hlv, by rw [← hser]; rfl⟩
  have hd : HistoryDays days yB (ts.map days) :=
    ⟨by rw [← hB.dates]; rfl, by rw [List.length_map]; exact hB.two,
      List.pairwise_map.2 (hts.sorted.imp fun h => hV.dates h)⟩
  obtain ⟨hl, hc⟩ := C34_fitted hpf hn hd (by rw [hi]; trivial) (by rw [hrr]; trivial)
    (by
      intro i _ v hv
      rw [hi] at hv
      simp only [ScalarOr.at, Option.some.injEq] at hv
      exact hv ▸ hi0)
  obtain ⟨v, r', limit, cs, -, hr', hlim, hcs, hcp⟩ := hc (ss.idxOf a) (List.idxOf_lt_length_iff.2 ha)
  rw [hrr] at hr'
  simp only [ScalarOr.at, Option.some.injEq] at hr'
  subst hr'
  have htime : ∀ t, s.time.scaled days t = trendTimeOf (ts.map days) (days t) := by
    obtain ⟨tt, htt, -, hsc, -⟩ := trendTimeFit_history hd hn
    obtain ⟨tt', cps, y', ya, s', h1, h2, -, -, -, rfl⟩ := piecewiseFit_inv hpf
    rw [htt] at h1
    cases h1
    exact hsc
  have h1N : (1 : ℝ) ≤ ((ts.map days).length : ℝ) - 1 := by
    have : (2 : ℝ) ≤ ((ts.map days).length : ℝ) := by exact_mod_cast hd.two
    linarith
  have hle : limit ≤ ((ts.map days).length : ℝ) - 1 := by
    rcases lt_or_ge r 1 with h1 | h1
    · rw [hlim.fraction hr0 h1]
      nlinarith
    · rw [hlim.count h1, List.length_map]
      exact hr r hrr
  have hpast : ∀ u, (∀ v ∈ ts, v ≤ u) → ∀ c ∈ cs, c ≤ s.time.scaled days u := by
    intro u hu c hc
    obtain ⟨k, -, hk⟩ := (hcp.mem c).1 hc
    rw [htime]
    refine (hk.le.trans hle).trans (trendTimeOf_last hd.two hd.increasing ?_)
    have hm : (ts.map days).getLastD 0 ∈ ts.map days := by
      refine getLastD_mem ?_
      intro h0
      have := hd.two
      rw [h0] at this
      simp at this
    obtain ⟨w, hw, he⟩ := List.mem_map.1 hm
    rw [← he]
    exact hV.dates.monotone (hu w hw)
  have hgc : s.cps.getD (ss.idxOf a) [] = cs := by rw [List.getD_eq_getElem?_getD, hcs]; rfl
  have hlen : cs.length = ((seriesCoefs s.cps θ).getD (ss.idxOf a) []).length := by
    symm
    refine splitLengths_length_at _ _ hθ.2 _ _ ?_
    rw [List.getElem?_map, hcs]
    rfl
  unfold panelTrendAt ownSlope
  rw [hgc, trendAt_diff fun c hc => iff_of_true (hpast t ht c hc) (hpast t' ht' c hc),
    C37_last_slope hlen (hpast t ht), htime, htime, trendTimeOf_diff]

theorem sameRegressors_val {cols shared : List String} {X₁ X₂ : Option (Frame String τ ℝ)} {ss : List (List String)}
    {a : List String} {t t' : τ} {v w : String → ℝ} (h1 : OwnCopies cols shared X₁ ss a t v)
    (h2 : OwnCopies cols shared X₂ ss a t' w) (hx : SameRegressors cols X₁ X₂ a t t') {n : String}
    (hn : ModelColumn cols shared ss n) : v n = w n := by
  rcases hn with ⟨hc, hsh⟩ | ⟨c, hc, hsh, b, hb, rfl⟩
  · rw [h1.shared n hc hsh, h2.shared n hc hsh, hx n hc]
  · rcases eq_or_ne b a with rfl | hne
    · rw [h1.own c hc hsh, h2.own c hc hsh, hx c hc]
    · rw [h1.other c hc hsh b hb hne, h2.other c hc hsh b hb hne]

/-! ## C136 -/

/-- **C136**: past the last training date the trend of each series follows one line, whose slope per step is
the sum of the coefficients of that series alone.  With the same regressors for the series, its forecasts in an
additive model differ by what its trend differs; in a multiplicative model they are the same multiple of it. -/
theorem C136_line (hV : ValidHier days p cfg) (hM : Modes mode cfg) {y : Frame String τ ℝ}
    (hy : RegularPanel y) {ss : List (List String)} (hss : SeriesOf y ss)
    (hsq : ss.length ≠ 1 ∨ p.squeeze = false) {ts : List τ} (hts : DatesOf y ts)
    (hr : ∀ r, p.range = .scalar r → r ≤ (ts.length : ℝ) - 1)
    {X : Option (Frame String τ ℝ)} (hX : GivenExog X ss ts)
    (hn : PlainNames cfg.compile (givenCols X) cfg.shared ss)
    {m : HierFit (Option (PiecewiseState ℝ τ)) (Scale ℝ) τ (Tensor ℝ) ℝ} (hfit : hierFitData cfg y X = .ok m) :
    ∃ s, m.trend.st.2 = some s ∧
      ∀ (y₁ y₂ : Frame String τ ℝ) (l₁ l₂ : List (List String)) (X₁ X₂ : Option (Frame String τ ℝ))
        (fh₁ fh₂ : List τ), fh₁.Pairwise (· < ·) → fh₂.Pairwise (· < ·) → GivenExog X₁ ss fh₁ →
      GivenExog X₂ ss fh₂ → (∀ c ∈ givenCols X, c ∈ givenCols X₁) → (∀ c ∈ givenCols X, c ∈ givenCols X₂) →
      ∀ td₁ data₁ td₂ data₂, hierPredictData cfg m l₁ y₁ X₁ fh₁ = .ok (td₁, data₁) →
      hierPredictData cfg m l₂ y₂ X₂ fh₂ = .ok (td₂, data₂) →
      ∀ θ st₁ st₂, PanelSites s.cps θ →
      computeMean (m.trend.cls.call m.trend.st) td₁ data₁ (callsOf m.objs) θ = .ok st₁ →
      computeMean (m.trend.cls.call m.trend.st) td₂ data₂ (callsOf m.objs) θ = .ok st₂ →
      ∀ (i j j' : Nat) (a : List String) (t t' : τ), ss[i]? = some a → fh₁[j]? = some t → fh₂[j']? = some t' →
      (∀ u ∈ ts, u ≤ t) → (∀ u ∈ ts, u ≤ t') →
      ∃ a₁ a₂ T₁ T₂, panelMeanAt st₁ i j = some a₁ ∧ panelMeanAt st₂ i j' = some a₂ ∧
        T₁ = panelTrendAt days s ss θ a t ∧ T₂ = panelTrendAt days s ss θ a t' ∧
        T₂ - T₁ = ownSlope s ss θ a * ((days t' - days t) / dayStep (ts.map days)) ∧
        (SameRegressors (givenCols X) X₁ X₂ a t t' →
          ((∀ fe ∈ kept m.fitted, mode fe.name = "additive") → a₂ - a₁ = T₂ - T₁) ∧
          ((∀ fe ∈ kept m.fitted, mode fe.name ≠ "additive") → a₂ * T₁ = a₁ * T₂)) := by
  obtain ⟨s, hs, hmc, hF⟩ := C115_closed_form hV hM hy hss hsq hts hX hn hfit
  refine ⟨s, hs, ?_⟩
  intro y₁ y₂ l₁ l₂ X₁ X₂ fh₁ fh₂ hf₁ hf₂ hX₁ hX₂ hc₁ hc₂ td₁ data₁ td₂ data₂ hp₁ hp₂ θ st₁ st₂ hθ hm₁ hm₂ i j j' a t t'
    hi hj hj' ht ht'
  obtain ⟨v, hv, h1⟩ := hF y₁ l₁ X₁ fh₁ hf₁ hX₁ hc₁ td₁ data₁ hp₁
  obtain ⟨w, hw, h2⟩ := hF y₂ l₂ X₂ fh₂ hf₂ hX₂ hc₂ td₂ data₂ hp₂
  have ha := List.mem_of_getElem? hi
  refine ⟨_, _, _, _, h1 θ st₁ hθ hm₁ i j a t hi hj, h2 θ st₂ hθ hm₂ i j' a t' hi hj', rfl, rfl,
    panel_far_line hV hy hss hts hr hX hn.compiles hfit hs hθ ha ht ht', fun hx => ?_⟩
  have hvw : ∀ fe ∈ kept m.fitted, fe.cols.map (v a t) = fe.cols.map (w a t') := fun fe hfe =>
    List.map_congr_left fun n hnn => sameRegressors_val (hv a ha t (List.mem_of_getElem? hj))
      (hw a ha t' (List.mem_of_getElem? hj')) hx (hmc fe (List.mem_of_mem_filter hfe) n hnn)
  refine ⟨fun hadd => ?_, fun hmul => ?_⟩
  · have : ((kept m.fitted).map fun fe => combine (mode fe.name) (panelTrendAt days s ss θ a t)
          (Tensor.dot (fe.cols.map (v a t)) (θ (fe.name ++ "/coefs")).data))
        = (kept m.fitted).map fun fe => combine (mode fe.name) (panelTrendAt days s ss θ a t')
          (Tensor.dot (fe.cols.map (w a t')) (θ (fe.name ++ "/coefs")).data) := by
      refine List.map_congr_left fun fe hfe => ?_
      rw [hvw fe hfe]
      simp only [combine, hadd fe hfe, if_true]
    rw [this]
    ring
  · have key : ∀ (u : τ) (z : String → ℝ), ((kept m.fitted).map fun fe => combine (mode fe.name)
          (panelTrendAt days s ss θ a u) (Tensor.dot (fe.cols.map z) (θ (fe.name ++ "/coefs")).data)).sum
        = panelTrendAt days s ss θ a u * ((kept m.fitted).map fun fe =>
          Tensor.dot (fe.cols.map z) (θ (fe.name ++ "/coefs")).data).sum := by
      intro u z
      rw [← List.sum_map_mul_left]
      congr 1
      refine List.map_congr_left fun fe hfe => ?_
      simp only [combine, if_neg (hmul fe hfe)]
    have : ((kept m.fitted).map fun fe => Tensor.dot (fe.cols.map (v a t)) (θ (fe.name ++ "/coefs")).data)
        = (kept m.fitted).map fun fe => Tensor.dot (fe.cols.map (w a t')) (θ (fe.name ++ "/coefs")).data :=
      List.map_congr_left fun fe hfe => by rw [hvw fe hfe]
    rw [key, key, this]
    ring

end

/-! ## A concrete case -/

noncomputable section

/-- Two series with training dates 0 and 1, forecast for the dates 2 and 3: the trend of each series rises by
its own slope. -/
example : ∃ m s, hierFitData exCfg113 exY113 (some exX113) = .ok m ∧ m.trend.st.2 = some s ∧
    ∃ td data, hierPredictData exCfg113 m [["__total", "p", "q"]] exY113 (some exX113) [2, 3] = .ok (td, data) ∧
      ∀ θ, HierSizes s m θ → ∃ st,
        computeMean (m.trend.cls.call m.trend.st) td data (callsOf m.objs) θ = .ok st ∧
        ∃ a₁ a₂ T₁ T₂, panelMeanAt st 1 0 = some a₁ ∧ panelMeanAt st 1 1 = some a₂ ∧
          T₁ = panelTrendAt (fun t : ℤ => (t : ℝ)) s [["p"], ["q"]] θ ["q"] 2 ∧
          T₂ = panelTrendAt (fun t : ℤ => (t : ℝ)) s [["p"], ["q"]] θ ["q"] 3 ∧
          T₂ = T₁ + ownSlope s [["p"], ["q"]] θ ["q"] := by
  have hX := exExog113 (ts := [0, 1]) (by simp) (by simp) (by simp)
  have hX₁ := exExog113 (ts := [2, 3]) (by simp) (by simp) (by simp)
  obtain ⟨m, hm⟩ := C113_fits exValid113 exPanel113 exSeries113 exDates113 hX exPlain115.compiles
  obtain ⟨s, hs, -, h⟩ := C113_forecasts exValid113 exPanel113 exSeries113 (.inl (by simp)) exDates113 hX
    exPlain115.compiles hm
  obtain ⟨td, data, h1, h2⟩ := h exY113 [["__total", "p", "q"]] (some exX113) [2, 3] exPanel113
    ⟨rfl, by
      intro r hr
      simp only [exY113, List.map_cons, List.map_nil, List.mem_cons, List.not_mem_nil, or_false] at hr
      rcases hr with rfl | rfl | rfl | rfl | rfl | rfl <;> simp⟩ (by simp) (by simp) hX₁ (fun c hc => hc)
  obtain ⟨s', hs', hF⟩ := C136_line exValid113 exModes113 exPanel113 exSeries113 (.inl (by simp)) exDates113
    (by
      intro r hr
      simp only [exP113, ScalarOr.scalar.injEq] at hr
      rw [← hr]
      norm_num) hX exPlain115 hm
  rw [hs] at hs'
  cases hs'
  refine ⟨m, s, hm, hs, td, data, h1, fun θ hθ => ?_⟩
  obtain ⟨st, h3, -⟩ := h2 θ hθ
  obtain ⟨a₁, a₂, T₁, T₂, e1, e2, e3, e4, e5, -⟩ := hF exY113 exY113 [["__total", "p", "q"]] [["__total", "p", "q"]]
    (some exX113) (some exX113) [2, 3] [2, 3] (by simp) (by simp) hX₁ hX₁ (fun c hc => hc) (fun c hc => hc) td data td data
    h1 h1 θ st st hθ.trend h3 h3 1 0 1 ["q"] 2 3 rfl rfl rfl (by simp) (by simp)
  refine ⟨st, h3, a₁, a₂, T₁, T₂, e1, e2, e3, e4, ?_⟩
  have : dayStep ([0, 1].map fun t : ℤ => (t : ℝ)) = 1 := by norm_num [dayStep]
  rw [this] at e5
  norm_num at e5
  linarith

end
end PV
