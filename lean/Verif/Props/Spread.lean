import Verif.Props.CurvesWork
import Verif.Props.IntervalWidth

/-!
# C127: how much forecast samples spread, near and far

With several draws of the parameters, samples differ because of the noise and because the draws disagree
about the mean.  With a piecewise linear trend the disagreement grows with the square of the horizon.
-/

namespace PV
open MeasureTheory ProbabilityTheory Set Tensor

/-! ## Specification -/

/-- The sample variance of a list, with denominator one less than the length. -/
noncomputable def sampleVar (l : List ℝ) : ℝ :=
  (l.map fun v => (v - l.sum / l.length) ^ 2).sum / ((l.length : ℝ) - 1)

/-- The average of `N` numbers. -/
noncomputable def avgOf (N : ℕ) (a : ℕ → ℝ) : ℝ := (∑ n ∈ Finset.range N, a n) / N

/-- The sample covariance of `N` pairs of numbers. -/
noncomputable def cospread (N : ℕ) (a b : ℕ → ℝ) : ℝ :=
  (∑ n ∈ Finset.range N, (a n - avgOf N a) * (b n - avgOf N b)) / ((N : ℝ) - 1)

/-- The sample variance of `N` numbers. -/
noncomputable def spreadOf (N : ℕ) (a : ℕ → ℝ) : ℝ := cospread N a a

section
variable {Ω τ : Type} [MeasurableSpace Ω] [LinearOrder τ]

/-- Over all simulations, the sample variance of the forecast samples of one series and date is `v` on
average. -/
def SampleVariance (P : Measure Ω) (f : Ω → Frame Nat τ ℝ) (sid : List String) (time : τ) (v : ℝ) : Prop :=
  ∃ V : Ω → ℝ, (∀ ω, (∃ r ∈ (f ω).rows, r.sid = sid ∧ r.time = time) ∧
      ∀ r ∈ (f ω).rows, r.sid = sid → r.time = time → sampleVar ((f ω).cols.map r.val) = V ω) ∧
    Integrable V P ∧ ∫ ω, V ω ∂P = v

end

/-! ## Sums -/

theorem spread_expand {N : ℕ} (hN : 0 < N) (a b : ℕ → ℝ) :
    ∑ n ∈ Finset.range N, (a n - avgOf N a) * (b n - avgOf N b)
      = ∑ n ∈ Finset.range N, a n * b n - N * (avgOf N a * avgOf N b) := by
  have h0 : (N : ℝ) ≠ 0 := Nat.cast_ne_zero.2 hN.ne'
  have e : ∀ n, (a n - avgOf N a) * (b n - avgOf N b)
      = a n * b n - avgOf N b * a n - avgOf N a * b n + avgOf N a * avgOf N b := fun n => by ring
  have ea : ∑ n ∈ Finset.range N, a n = N * avgOf N a := by unfold avgOf; field_simp
  have eb : ∑ n ∈ Finset.range N, b n = N * avgOf N b := by unfold avgOf; field_simp
  simp only [e, Finset.sum_add_distrib, Finset.sum_sub_distrib, ← Finset.mul_sum, Finset.sum_const,
    Finset.card_range, nsmul_eq_mul, ea, eb]
  ring

theorem avgOf_line (N : ℕ) (a k : ℕ → ℝ) (d : ℝ) :
    avgOf N (fun n => a n + d * k n) = avgOf N a + d * avgOf N k := by
  unfold avgOf
  rw [Finset.sum_add_distrib, ← Finset.mul_sum]
  ring

/-- The variance of points on lines. -/
theorem spreadOf_line (N : ℕ) (a k : ℕ → ℝ) (d : ℝ) :
    spreadOf N (fun n => a n + d * k n) = spreadOf N a + 2 * d * cospread N a k + d ^ 2 * spreadOf N k := by
  unfold spreadOf cospread
  rw [avgOf_line, mul_div_assoc', mul_div_assoc', ← add_div, ← add_div, Finset.mul_sum, Finset.mul_sum,
    ← Finset.sum_add_distrib, ← Finset.sum_add_distrib]
  congr 1
  refine Finset.sum_congr rfl fun n _ => ?_
  ring

theorem spreadOf_congr {N : ℕ} {a b : ℕ → ℝ} (h : ∀ n < N, a n = b n) : spreadOf N a = spreadOf N b := by
  have e : avgOf N a = avgOf N b := by
    unfold avgOf
    rw [Finset.sum_congr rfl fun n hn => h n (Finset.mem_range.1 hn)]
  unfold spreadOf cospread
  rw [e, Finset.sum_congr rfl fun n hn => by rw [h n (Finset.mem_range.1 hn)]]

theorem sampleVar_ofFn (N : ℕ) (c : ℝ) (D : ℕ → ℝ) :
    sampleVar (List.ofFn fun n : Fin N => c * D n) = c ^ 2 * spreadOf N D := by
  have hs : ∀ g : ℕ → ℝ, (List.ofFn fun n : Fin N => g n).sum = ∑ n ∈ Finset.range N, g n := by
    intro g
    rw [List.sum_ofFn, Finset.sum_range]
  unfold sampleVar spreadOf cospread
  rw [List.map_ofFn, List.length_ofFn]
  have e1 : (List.ofFn fun n : Fin N => c * D n).sum / N = c * avgOf N D := by
    rw [hs fun n => c * D n, ← Finset.mul_sum, avgOf, mul_div_assoc]
  rw [e1]
  have e2 : (List.ofFn ((fun v => (v - c * avgOf N D) ^ 2) ∘ fun n : Fin N => c * D n)).sum
      = c ^ 2 * ∑ n ∈ Finset.range N, (D n - avgOf N D) * (D n - avgOf N D) := by
    rw [Finset.mul_sum]
    refine (hs fun n => (c * D n - c * avgOf N D) ^ 2).trans (Finset.sum_congr rfl fun n _ => ?_)
    ring
  rw [e2, mul_div_assoc]

section
variable {Ω τ : Type} [MeasurableSpace Ω] {P : Measure Ω} [IsProbabilityMeasure P] [LinearOrder τ]

/-- The expected sample variance of independent numbers: their average variance plus the variance of their
means. -/
theorem spread_mean {N : ℕ} (hN : 2 ≤ N) {D : ℕ → Ω → ℝ} {m v : ℕ → ℝ}
    (hD : ∀ n < N, MemLp (D n) 2 P ∧ ∫ ω, D n ω ∂P = m n ∧ Var[D n; P] = v n)
    (hind : ∀ n < N, ∀ n' < N, n ≠ n' → IndepFun (D n) (D n') P) :
    Integrable (fun ω => spreadOf N fun n => D n ω) P ∧
    ∫ ω, spreadOf N (fun n => D n ω) ∂P = avgOf N v + spreadOf N m := by
  have h0 : 0 < N := by omega
  have hN0 : (N : ℝ) ≠ 0 := Nat.cast_ne_zero.2 h0.ne'
  have hN1 : (N : ℝ) - 1 ≠ 0 := by
    have : (2 : ℝ) ≤ N := by exact_mod_cast hN
    intro h
    linarith
  obtain ⟨a1, a2, a3⟩ := average_moments h0 hD hind 1
  simp only [one_mul, one_pow] at a1 a2 a3
  have e : (fun ω => spreadOf N fun n => D n ω) = fun ω =>
      (∑ n ∈ Finset.range N, D n ω ^ 2 - N * ((∑ n ∈ Finset.range N, D n ω) / N) ^ 2) / ((N : ℝ) - 1) := by
    funext ω
    unfold spreadOf cospread
    rw [spread_expand h0]
    simp only [avgOf, pow_two]
  have i1 : ∀ n ∈ Finset.range N, Integrable (fun ω => D n ω ^ 2) P := fun n hn =>
    (hD n (Finset.mem_range.1 hn)).1.integrable_sq
  have i2 : Integrable (fun ω => ((∑ n ∈ Finset.range N, D n ω) / N) ^ 2) P := a1.integrable_sq
  rw [e]
  refine ⟨((integrable_finsetSum _ i1).sub (i2.const_mul _)).div_const _, ?_⟩
  have s1 : ∀ n ∈ Finset.range N, ∫ ω, D n ω ^ 2 ∂P = v n + m n ^ 2 := by
    intro n hn
    obtain ⟨b1, b2, b3⟩ := hD n (Finset.mem_range.1 hn)
    have := variance_eq_sub b1
    rw [b2, b3] at this
    simp only [Pi.pow_apply] at this
    linarith
  have s2 : ∫ ω, ((∑ n ∈ Finset.range N, D n ω) / N) ^ 2 ∂P
      = (∑ n ∈ Finset.range N, v n) / N ^ 2 + avgOf N m ^ 2 := by
    have := variance_eq_sub a1
    rw [a2, a3] at this
    simp only [Pi.pow_apply] at this
    unfold avgOf
    linarith
  rw [integral_div, integral_sub (integrable_finsetSum _ i1) (i2.const_mul _), integral_finsetSum _ i1,
    integral_const_mul, s2, Finset.sum_congr rfl s1, Finset.sum_add_distrib]
  unfold spreadOf cospread
  rw [spread_expand h0]
  have : avgOf N v = (∑ n ∈ Finset.range N, v n) / N := rfl
  rw [this]
  simp only [pow_two]
  field_simp
  ring

/-- **C127**, all forecasters: if the draws for one series and date are independent, draw `n` having the mean
`m n` and the variance `v n`, then the sample variance of the forecast samples is on average the squared scale
times the sum of two parts: the average of the `v n` and the sample variance of the `m n`. -/
theorem C127_variance {ctx : Fitted ℝ} {obs : Ω → Tensor ℝ} {fh : List τ} {f : Ω → Frame Nat τ ℝ}
    {N k : ℕ} (hN : 2 ≤ N) (hw : ∀ ω, (obs ω).WF)
    (hsh : ∀ ω, (obs ω).shape
      = N :: (List.replicate k 1 ++ [fh.length, (forecastSeries ctx).length]))
    (hfh : fh.Nodup) (h : ∀ ω, predictSamples ctx (obs ω) fh = .ok (f ω)) {i t : ℕ}
    {sid : List String} {time : τ} (hi : (forecastSeries ctx)[i]? = some sid)
    (ht : fh[t]? = some time) {c : ℝ} (hc : ScaleIs ctx sid c) {D : ℕ → Ω → ℝ}
    (hD : ∀ n < N, ∀ ω, (obs ω).get? (n :: (List.replicate k 0 ++ [t, i])) = some (D n ω))
    {m v : ℕ → ℝ} (hmv : ∀ n < N, MemLp (D n) 2 P ∧ ∫ ω, D n ω ∂P = m n ∧ Var[D n; P] = v n)
    (hind : ∀ n < N, ∀ n' < N, n ≠ n' → IndepFun (D n) (D n') P) :
    SampleVariance P f sid time (c ^ 2 * (avgOf N v + spreadOf N m)) := by
  obtain ⟨h1, h2⟩ := spread_mean hN hmv hind
  refine ⟨fun ω => c ^ 2 * spreadOf N fun n => D n ω, fun ω => ?_, h1.const_mul _, ?_⟩
  · obtain ⟨h3, h4⟩ := row_draws (hw ω) (hsh ω) hfh (h ω) hi ht hc (D := fun n => D n ω)
      fun n hn => hD n hn ω
    refine ⟨h3, fun r hr e1 e2 => ?_⟩
    rw [h4 r hr e1 e2]
    exact sampleVar_ofFn N c fun n => D n ω
  · rw [integral_const_mul, h2]

/-- **C127**, one series and normal likelihood: draw `n` is simulated at the `n`-th draw of the parameters, with
noise `σ n` and mean `m n`. -/
theorem C127_normal {ctx : Fitted ℝ} {obs : Ω → Tensor ℝ} {fh : List τ} {f : Ω → Frame Nat τ ℝ}
    {N t : ℕ} {D : ℕ → Ω → ℝ} (h : DrawsFor P ctx obs fh f N t D) (hN : 2 ≤ N) {time : τ}
    (ht : fh[t]? = some time) {c : ℝ} (hc : ScaleIs ctx [] c) {σ m : ℕ → ℝ} {mean : ℕ → Tensor ℝ}
    (hσ : ∀ n < N, 0 < σ n) (hm : ∀ n < N, (mean n).data[t]? = some (m n)) (scale : ℝ)
    (hD : ∀ n < N, ∃ d, (univariateObs .normal (σ n) scale (mean n))[t]? = some d ∧ DrawnFrom P (D n) d) :
    SampleVariance P f [] time (c ^ 2 * (avgOf N (fun n => σ n ^ 2) + spreadOf N m)) := by
  have hfs : forecastSeries ctx = [[]] := by simp [forecastSeries, h.flat]
  refine C127_variance (k := 0) (i := 0) hN h.wf (fun ω => ?_) h.nodup h.ok (by rw [hfs]; rfl) ht hc h.draw
    (fun n hn => ?_) h.indep
  · rw [h.shape ω, hfs]
    rfl
  · obtain ⟨d, hd, hdr⟩ := hD n hn
    have : d = .normal (m n) (σ n) := by
      simp only [univariateObs, List.getElem?_map, hm n hn, Option.map_some, Option.some.injEq] at hd
      exact hd.symm
    rw [this] at hdr
    exact drawn_normal (hσ n hn) hdr

/-- **C127**, maximum a posteriori inference: all draws share the parameters, and the sample variance is on average
the squared noise in the units of the target, at every date. -/
theorem C127_map {ctx : Fitted ℝ} {obs : Ω → Tensor ℝ} {fh : List τ} {f : Ω → Frame Nat τ ℝ}
    {N t : ℕ} {D : ℕ → Ω → ℝ} (h : DrawsFor P ctx obs fh f N t D) (hN : 2 ≤ N) {time : τ}
    (ht : fh[t]? = some time) {c : ℝ} (hc : ScaleIs ctx [] c) {σ m : ℝ} {mean : Tensor ℝ}
    (hσ : 0 < σ) (hm : mean.data[t]? = some m) (scale : ℝ)
    (hD : ∀ n < N, ∃ d, (univariateObs .normal σ scale mean)[t]? = some d ∧ DrawnFrom P (D n) d) :
    SampleVariance P f [] time ((c * σ) ^ 2) := by
  have h0 : (N : ℝ) ≠ 0 := Nat.cast_ne_zero.2 h.pos.ne'
  have := C127_normal h hN ht hc (σ := fun _ => σ) (m := fun _ => m) (mean := fun _ => mean)
    (fun _ _ => hσ) (fun _ _ => hm) scale hD
  have e1 : avgOf N (fun _ => σ ^ 2) = σ ^ 2 := by
    unfold avgOf
    rw [Finset.sum_const, Finset.card_range, nsmul_eq_mul]
    field_simp
  have e2 : spreadOf N (fun _ => m) = 0 := by
    unfold spreadOf cospread avgOf
    rw [Finset.sum_const, Finset.card_range, nsmul_eq_mul]
    have : (N : ℝ) * m / N = m := by field_simp
    simp [this]
  rw [e1, e2, add_zero] at this
  rwa [mul_pow]

end

/-! ## Growth with the horizon -/

section
variable {τ : Type} [LinearOrder τ]

/-- The mean of a forecaster has one entry per date of the horizon. -/
theorem predicts_entry {days : τ → ℝ} {s : PiecewiseState ℝ τ} {cs : List ℝ}
    {cfg : UniConfig (Option (PiecewiseState ℝ τ)) (Scale ℝ) τ ℝ (Tensor ℝ) ℝ} {y : Frame String τ ℝ}
    {X : Option (Frame String τ ℝ)} {m : UniFit (Option (PiecewiseState ℝ τ)) (Scale ℝ) τ ℝ (Tensor ℝ) ℝ}
    {mode : String → String} {raw : String → EffectCall (Transformed (Tensor ℝ)) ℝ}
    (hM : RowModel cfg y X m (SingleSites cs) (piecewiseAt days s cs) mode raw)
    {ρ : String → SiteEnv ℝ → List ℝ → List ℝ} (hraw : ∀ n, RowWiseRaw (raw n) (ρ n))
    {θ : SiteEnv ℝ} (hθ : SingleSites cs θ) {X' x : Frame String τ ℝ} {fh : List τ} {st : MeanState ℝ}
    (hp : Predicts cfg m θ X' fh x st) (i : Nat) : st.mean.data[i]? = meanAt st i := by
  obtain ⟨hfit, ht, he, hd, hn, hres, htr⟩ := hM
  obtain ⟨yT, x0, -, -, hfe, hobjs⟩ := uniFitData_fitted hfit
  obtain ⟨hn', htr'⟩ := C17_names hn hres htr hfe
  have hpw : ∀ fe ∈ kept m.fitted, PointwiseEffect fe.effect
      (rowValue (mode fe.name) fe.cols (ρ fe.name)) := by
    intro fe hk
    obtain ⟨hc, b, hst⟩ := fitEffects_mem hfe fe (List.mem_of_mem_filter hk)
    have hcls : RowEffect fe.effect.cls (mode fe.name) (raw fe.name) := by
      rcases hc with ⟨e, hmem, h1, h2⟩ | ⟨h1, h2⟩
      · rw [h1, h2]; exact he e hmem
      · rw [h1, h2]; exact hd
    have hcols := kept_cols hk hcls.skips hst
    have := C71_effect hcls.atDates hcls.data hcls.call (hraw fe.name)
    rwa [hcols] at this
  obtain ⟨td, data, hp1, hm⟩ := hp.run
  unfold uniPredictData at hp1
  simp only [Option.getD_some, hp.features, bind, Except.bind, pure, Except.pure] at hp1
  split at hp1
  · cases hp1
  rename_i td' h1
  split at hp1
  · cases hp1
  rename_i data' h2
  cases hp1
  unfold meanAt
  rw [C71_closed_form ht hpw hn' htr' hp.dates h1 h2 hobjs hθ hm, columnOf_get?]
  rfl

variable {days : τ → ℝ} {suggest : List ℝ → Tensor ℝ → PyM (List ℝ × List ℝ)}
  {p : PiecewiseParams ℝ τ}
  {cfg : UniConfig (Option (PiecewiseState ℝ τ)) (Scale ℝ) τ ℝ (Tensor ℝ) ℝ} {y : Frame String τ ℝ}
  {X : Option (Frame String τ ℝ)} {m : UniFit (Option (PiecewiseState ℝ τ)) (Scale ℝ) τ ℝ (Tensor ℝ) ℝ}
  {mode : String → String} {kind : String → Curve} {ds : List ℝ}

/-- **C127**, horizon: with a piecewise linear trend and additive effects, `N` draws of the parameters, and two dates
of the horizon past the history with the same values of the regressors, `d` steps apart.  With `a n` the mean of
draw `n` at the first date and `k n` its last slope, the sample variance at the second date is on average the squared
scale times a quadratic function of `d`: average noise variance, plus sample variance of the `a n`, plus `2 d` times
the sample covariance of `a n` and `k n`, plus `d²` times the sample variance of the slopes. -/
theorem C127_horizon (hE : Extrapolates days suggest piecewisePredict p mode kind cfg y ds)
    (hfit : uniFitData cfg y X = .ok m) (hadd : ∀ fe ∈ kept m.fitted, mode fe.name = "additive") :
    ∃ s cs, m.trend.st.2 = some s ∧ s.cps = [cs] ∧ ∀ (N : ℕ) (θ : ℕ → SiteEnv ℝ), 2 ≤ N →
      (∀ n < N, SingleSites cs (θ n)) → ∀ (X₁ x₁ : Frame String τ ℝ) (fh : List τ) (st : ℕ → MeanState ℝ),
      (∀ n < N, Predicts cfg m (θ n) X₁ fh x₁ (st n)) →
      ∀ (i j : Nat) (t t' : τ), fh[i]? = some t → fh[j]? = some t' →
      ds.getLastD 0 ≤ days t → ds.getLastD 0 ≤ days t' →
      (∀ fe ∈ kept m.fitted, ∀ c ∈ fe.cols, rowAt x₁ t c = rowAt x₁ t' c) →
      ∃ a : ℕ → ℝ, (∀ n < N, meanAt (st n) i = some (a n)) ∧
        ∀ {Ω : Type} [MeasurableSpace Ω] (P : Measure Ω) [IsProbabilityMeasure P] (ctx : Fitted ℝ)
          (obs : Ω → Tensor ℝ) (f : Ω → Frame Nat τ ℝ) (D : ℕ → Ω → ℝ) (c scale : ℝ) (σ : ℕ → ℝ),
        DrawsFor P ctx obs fh f N j D → ScaleIs ctx [] c → (∀ n < N, 0 < σ n) →
        (∀ n < N, ∃ d, (univariateObs .normal (σ n) scale (st n).mean)[j]? = some d ∧ DrawnFrom P (D n) d) →
        let d := (days t' - days t) / dayStep ds
        let k := fun n => (θ n "changepoint_coefficients").data.sum
        SampleVariance P f [] t' (c ^ 2 * (avgOf N (fun n => σ n ^ 2)
          + (spreadOf N a + 2 * d * cospread N a k + d ^ 2 * spreadOf N k))) := by
  obtain ⟨s, cs, hs, hcs, hline⟩ := C117_line hE hfit
  obtain ⟨i₀, hi₀, hi0⟩ := hE.interval
  obtain ⟨r, limit, hr, hlim, hle⟩ := hE.range
  obtain ⟨hcls, s', cs', hs', hF⟩ := uni_trend hE.trend hi₀ hi0 hr hE.flat hE.days hlim hfit
  rw [hs] at hs'
  cases hs'
  have : cs' = cs := by simpa [hF.cps] using hcs
  subst this
  have hpt : PointwiseTrend m.trend (SingleSites cs') (piecewiseAt days s cs') :=
    C71_piecewise hcls hE.squeeze hs hF.cps hF.series
  obtain ⟨hM, -⟩ := C106_builtin hfit hpt hE.effects hE.default hE.names hE.noDefault hE.noTrend
  refine ⟨s, cs', hs, hcs, ?_⟩
  intro N θ hN hθ X₁ x₁ fh st hp i j t t' hi hj ht ht' hx
  have key : ∀ n, ∃ a : ℝ, n < N → meanAt (st n) i = some a ∧ meanAt (st n) j
      = some (a + (days t' - days t) / dayStep ds * (θ n "changepoint_coefficients").data.sum) := by
    intro n
    by_cases hn : n < N
    · obtain ⟨a₁, a₂, T₁, T₂, m1, m2, -, -, hT, hmn⟩ := hline (θ n) (hθ n hn) X₁ X₁ x₁ x₁ fh fh (st n) (st n)
        (hp n hn) (hp n hn) i j t t' hi hj ht ht'
      refine ⟨a₁, fun _ => ⟨m1, ?_⟩⟩
      rw [m2]
      congr 1
      have := (hmn hx).1 hadd
      linarith
    · exact ⟨0, fun h => absurd h hn⟩
  choose a ha using key
  refine ⟨a, fun n hn => (ha n hn).1, ?_⟩
  intro Ω _ P _ ctx obs f D c scale σ hDr hc hσ hD
  have := C127_normal hDr hN hj hc hσ (m := fun n => a n + (days t' - days t) / dayStep ds
      * (θ n "changepoint_coefficients").data.sum) (mean := fun n => (st n).mean) (fun n hn => by
    rw [predicts_entry hM (fun n => (kind n).rowWise) (hθ n hn) (hp n hn), (ha n hn).2]) scale hD
  rwa [spreadOf_line N a (fun n => (θ n "changepoint_coefficients").data.sum)] at this

end

open Filter in
/-- **C127**: if the last slopes of the draws are not all the same, the sample variance of C127_horizon exceeds every
bound when the horizon is long enough. -/
theorem C127_unbounded {N : ℕ} {k : ℕ → ℝ} {n n' : ℕ} (hn : n < N) (hn' : n' < N) (hk : k n ≠ k n') {c : ℝ}
    (hc : c ≠ 0) (v : ℝ) (a : ℕ → ℝ) :
    0 < spreadOf N k ∧
    Tendsto (fun d => c ^ 2 * (v + (spreadOf N a + 2 * d * cospread N a k + d ^ 2 * spreadOf N k))) atTop atTop := by
  have hN : 2 ≤ N := by
    have : n ≠ n' := fun e => hk (e ▸ rfl)
    omega
  have hN1 : (0 : ℝ) < (N : ℝ) - 1 := by
    have : (2 : ℝ) ≤ N := by exact_mod_cast hN
    linarith
  have hpos : 0 < spreadOf N k := by
    unfold spreadOf cospread
    refine div_pos ?_ hN1
    have hne : ∃ j ∈ Finset.range N, k j ≠ avgOf N k := by
      by_contra h
      push Not at h
      exact hk ((h n (Finset.mem_range.2 hn)).trans (h n' (Finset.mem_range.2 hn')).symm)
    obtain ⟨j, hj, hjk⟩ := hne
    refine Finset.sum_pos' (fun i _ => mul_self_nonneg _) ⟨j, hj, ?_⟩
    exact mul_self_pos.2 (sub_ne_zero.2 hjk)
  refine ⟨hpos, ?_⟩
  refine Tendsto.const_mul_atTop (by positivity) ?_
  refine tendsto_atTop_add_const_left _ _ ?_
  have e : (fun d : ℝ => spreadOf N a + 2 * d * cospread N a k + d ^ 2 * spreadOf N k)
      = fun d => spreadOf N a + d * (2 * cospread N a k + d * spreadOf N k) := by
    funext d
    ring
  rw [e]
  refine tendsto_atTop_add_const_left _ _ (tendsto_id.atTop_mul_atTop₀ ?_)
  exact tendsto_atTop_add_const_left _ _ (tendsto_id.atTop_mul_const hpos)

/-! ## Example

One series trained on the dates 0, 1, 2 with two additive columns, two draws of the parameters with different
slopes, and forecasts for the dates 3 and 9. -/

noncomputable section

/-- A trend and two additive effects. -/
def exCfg127 : UniConfig (Option (PiecewiseState ℝ Int)) (Scale ℝ) Int ℝ (Tensor ℝ) ℝ :=
  { exCfg118 .linear (· = "a") with default := (linearClass "additive").new }

def exMode127 (_ : String) : String := "additive"

theorem exSetup127 : CurveSetup (fun n : Int => (n : ℝ)) .linear exP85 exMode127 exKind118 exCfg127 :=
  { exSetup118 .linear (· = "a") with
    effects := by
      intro e he
      fin_cases he
      rfl
    default := rfl }

theorem exTraining127 : CurveTraining exCfg127 exY85 "y" (some exX118) exX118 :=
  { exTraining118 .linear (· = "a") with }

theorem exExtrapolates127 : Extrapolates (fun n : Int => (n : ℝ)) suggestLinear piecewisePredict exP85 exMode127
    exKind118 exCfg127 exY85 [0, 1, 2] :=
  { exExtrapolates117 .linear (· = "a") with
    effects := exSetup127.effects
    default := rfl }

theorem exOne127 {m : UniFit (Option (PiecewiseState ℝ Int)) (Scale ℝ) Int ℝ (Tensor ℝ) ℝ}
    (hfit : uniFitData exCfg127 exY85 (some exX118) = .ok m) :
    (kept m.fitted).map (fun fe => (fe.name, fe.cols)) = [("ads", ["a"]), ("exogenous_variables_effect", ["b"])] := by
  obtain ⟨yT, x0, x', hyT, htf, hx0, hx, htd0, hfe, hdata0, hobjs, hya⟩ := uniFitData_ok hfit
  obtain ⟨x0', hx0', hx'⟩ := exTraining127.features
  rw [hx0] at hx0'
  cases hx0'
  rw [hx] at hx'
  cases hx'
  obtain ⟨l, w, hl, hk⟩ : ∃ l w, fitEffects exCfg127.compile exCfg127.effects
      exCfg127.default (some exX118) exY85 exCfg127.effectScale = .ok (l, w) ∧
      (kept l).map (fun fe => (fe.name, fe.cols)) = [("ads", ["a"]), ("exogenous_variables_effect", ["b"])] :=
    ⟨_, _, rfl, rfl⟩
  rw [hl] at hfe
  cases hfe
  exact hk

/-- Two draws of the parameters: slope changes of 2, or of 3. -/
def exθ127 (cs : List ℝ) (n : ℕ) : SiteEnv ℝ := fun s =>
  if s = "offset" then ⟨[1], [1]⟩
  else if s = "changepoint_coefficients" then ⟨[cs.length], cs.map fun _ => 2 + n⟩
  else if s = "exogenous_variables_effect/coefs" then ⟨[1], [1 / 10]⟩ else ⟨[], [1]⟩

/-- The columns at the two dates. -/
def exFuture127 : Frame String Int ℝ := ⟨1, ["a", "b"], [⟨[], 3, fun _ => 1⟩, ⟨[], 9, fun _ => 1⟩]⟩

/-- Four independent normal numbers with means `μ`: draw `n` for date `t` is number `2 n + t`. -/
def exLaw127 (μ : Fin 4 → ℝ) : Measure (Fin 4 → ℝ) :=
  Measure.pi fun i => (gaussianReal 0 1).map fun z => μ i + 1 * z

def exObs127 (ω : Fin 4 → ℝ) : Tensor ℝ := ⟨[2, 2, 1], [ω 0, ω 1, ω 2, ω 3]⟩

instance (μ : Fin 4 → ℝ) (i : Fin 4) : IsProbabilityMeasure ((gaussianReal 0 1).map fun z => μ i + 1 * z) :=
  Measure.isProbabilityMeasure_map (by fun_prop)

instance (μ : Fin 4 → ℝ) : IsProbabilityMeasure (exLaw127 μ) := by unfold exLaw127; infer_instance

theorem exLaw127_drawn (μ : Fin 4 → ℝ) (i : Fin 4) : DrawnFrom (exLaw127 μ) (fun ω => ω i) (.normal (μ i) 1) := by
  refine ⟨(measurable_pi_apply i).aemeasurable, ?_⟩
  rw [normal_law (μ i) one_pos]
  exact (measurePreserving_eval (fun i => (gaussianReal 0 1).map fun z => μ i + 1 * z) i).map_eq

/-- The two draws of the second date. -/
def exDraw127 (n : ℕ) (ω : Fin 4 → ℝ) : ℝ := if n = 0 then ω 1 else ω 3

theorem exDraws127 (μ : Fin 4 → ℝ) : ∃ f, DrawsFor (exLaw127 μ) exCtx111 exObs127 [(3 : Int), 9] f 2 1 exDraw127 := by
  have hs : ∀ ω, ∃ g, predictSamples exCtx111 (exObs127 ω) [(3 : Int), 9] = .ok g := fun ω =>
    C06_succeeds (S := 2) (k := 0) rfl (by norm_num) (by simp [exCtx111])
      (fun s _ => ⟨10, Or.inr (Or.inl ⟨rfl, rfl⟩)⟩) (Or.inr fun n => by simp [exCtx111])
      (Or.inr (Or.inr ⟨10, rfl⟩))
  choose f hf using hs
  have hind : iIndepFun (fun i (ω : Fin 4 → ℝ) => ω i) (exLaw127 μ) :=
    iIndepFun_pi (X := fun _ x => x) fun i => aemeasurable_id
  refine ⟨f, by norm_num, rfl, fun ω => by simp [exObs127, WF, size], fun ω => rfl, by decide, hf, ?_, ?_⟩
  · intro n hn ω
    interval_cases n <;> rfl
  · intro n hn n' hn' hne
    interval_cases n <;> interval_cases n' <;> first
      | exact absurd rfl hne
      | exact hind.indepFun (by decide)

/-- The example meets all conditions of C127_horizon: forecasts for the dates 3 and 9, six steps apart, whose
samples are drawn from the two draws of the parameters. -/
example : ∃ m, uniFitData exCfg127 exY85 (some exX118) = .ok m ∧ ∃ (cs : List ℝ) (st : ℕ → MeanState ℝ) (a : ℕ → ℝ)
    (P : Measure (Fin 4 → ℝ)) (f : (Fin 4 → ℝ) → Frame Nat Int ℝ),
    (∀ n < 2, Predicts exCfg127 m (exθ127 cs n) exFuture127 [3, 9] exFuture127 (st n)) ∧
    (∀ n < 2, meanAt (st n) 0 = some (a n)) ∧
    SampleVariance P f [] 9 (10 ^ 2 * (avgOf 2 (fun _ => 1 ^ 2) + (spreadOf 2 a
      + 2 * (((9 : Int) - (3 : Int) : ℝ) / dayStep [0, 1, 2])
        * cospread 2 a (fun n => (exθ127 cs n "changepoint_coefficients").data.sum)
      + (((9 : Int) - (3 : Int) : ℝ) / dayStep [0, 1, 2]) ^ 2
        * spreadOf 2 fun n => (exθ127 cs n "changepoint_coefficients").data.sum))) := by
  obtain ⟨m, hm⟩ := C118_fits exSetup127 Int.cast_strictMono exTraining127 trivial
  refine ⟨m, hm, ?_⟩
  have hone := exOne127 hm
  have hnames : ∀ fe ∈ kept m.fitted, (fe.name, fe.cols) = ("ads", ["a"]) ∨
      (fe.name, fe.cols) = ("exogenous_variables_effect", ["b"]) := by
    intro fe hfe
    have : (fe.name, fe.cols) ∈ (kept m.fitted).map fun fe => (fe.name, fe.cols) := List.mem_map_of_mem hfe
    rw [hone] at this
    simpa using this
  obtain ⟨s, cs, hs, hcs, h⟩ := C118_forecasts exSetup127 Int.cast_strictMono exTraining127 hm
  obtain ⟨s', cs', hs', hcs', h'⟩ := C127_horizon exExtrapolates127 hm (fun _ _ => rfl)
  rw [hs] at hs'
  cases hs'
  rw [hcs] at hcs'
  cases hcs'
  have hX : DatesIn exFuture127 [3, 9] := ⟨rfl, by simp [exFuture127], by simp, by simp [exFuture127], by simp [exFuture127]⟩
  obtain ⟨td, data, h1, h2⟩ := h (some exFuture127) exFuture127 [3, 9] (by simp) rfl hX (fun a ha => ha)
  have hsites : ∀ n, SingleSites cs (exθ127 cs n) := fun n => ⟨⟨1, rfl⟩, by simp [exθ127]⟩
  have hst : ∀ n, ∃ st, computeMean (m.trend.cls.call m.trend.st) td data (callsOf m.objs) (exθ127 cs n) = .ok st ∧
      st.mean.shape = [2, 1] ∧ st.mean.WF := fun n => h2 (exθ127 cs n) ⟨hsites n, fun fe hfe hl => by
      rcases hnames fe hfe with h | h
      · simp only [Prod.mk.injEq] at h
        rw [h.1] at hl
        simp [exKind118] at hl
      · simp only [Prod.mk.injEq] at h
        rw [h.1, h.2]
        rfl⟩ (by
    intro fe hfe
    right
    rcases hnames fe hfe with h | h <;> simp only [Prod.mk.injEq] at h <;> rw [h.2] <;> rfl)
  choose st hst hsh hwf using hst
  have hlen : ∀ n, (st n).mean.data.length = 2 := fun n => by
    have := hwf n
    unfold WF at this
    rw [hsh n] at this
    simpa [size] using this
  have hp : ∀ n, Predicts exCfg127 m (exθ127 cs n) exFuture127 [3, 9] exFuture127 (st n) := fun n =>
    ⟨rfl, hX, td, data, h1, hst n⟩
  obtain ⟨a, ha, hfin⟩ := h' 2 (exθ127 cs) le_rfl (fun n _ => hsites n) exFuture127 exFuture127 [3, 9] st
    (fun n _ => hp n) 0 1 3 9 rfl rfl (by norm_num) (by norm_num) (fun _ _ _ _ => rfl)
  let μ : Fin 4 → ℝ := fun i => if i = 1 then (st 0).mean.data.getD 1 0 else (st 1).mean.data.getD 1 0
  obtain ⟨f, hf⟩ := exDraws127 μ
  refine ⟨cs, st, a, exLaw127 μ, f, fun n _ => hp n, ha, ?_⟩
  refine hfin (exLaw127 μ) exCtx111 exObs127 f exDraw127 10 1 (fun _ => 1) hf (Or.inr (Or.inl ⟨rfl, rfl⟩))
    (fun _ _ => one_pos) fun n hn => ?_
  have hget : ∀ n, (st n).mean.data[1]? = some ((st n).mean.data.getD 1 0) := fun n => by
    rw [List.getD_eq_getElem _ _ (by rw [hlen]; norm_num)]
    exact List.getElem?_eq_getElem _
  refine ⟨.normal ((st n).mean.data.getD 1 0) 1, ?_, ?_⟩
  · simp only [univariateObs, List.getElem?_map, hget n, Option.map_some]
  · interval_cases n
    · exact exLaw127_drawn μ 1
    · exact exLaw127_drawn μ 3

end

end PV
