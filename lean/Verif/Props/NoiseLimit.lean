import Verif.Props.PanelPenalised

/-!
# C134: what the noise level and the prior scales do to a panel, and the limits of small and large noise

The smoothing knobs of the hierarchical forecaster are monotone.  As the noise level of either forecaster tends
to zero, the best fit tends to the least squares; as it grows, the fit tends to the constant at the centre of
the offset's prior.
-/

set_option linter.unusedSectionVars false

namespace PV
open Tensor Filter Matrix Topology

/-! ## Lemmas about limits -/

/-- Of two weighings of a sum, the one that weighs the second part more has the smaller second part. -/
theorem weighing_mono {A A' B B' w w' : ℝ} (hw : 0 < w) (hww : w < w') (h : A + w * B ≤ A' + w * B')
    (h' : A' + w' * B' ≤ A + w' * B) : B' ≤ B ∧ A ≤ A' := by
  have h1 : (w' - w) * (B' - B) ≤ 0 := by linarith
  have h2 : B' ≤ B := by
    by_contra hc
    push Not at hc
    have := mul_pos (sub_pos.2 hww) (sub_pos.2 hc)
    linarith
  have h3 : w * B' ≤ w * B := mul_le_mul_of_nonneg_left h2 hw.le
  exact ⟨h2, by linarith⟩

/-- A penalty that vanishes leaves the least error. -/
theorem vanishing_penalty {α : Type} {A : Set α} {E P : α → ℝ} {w : ℕ → ℝ} (hw : Tendsto w atTop (𝓝 0))
    {a : ℕ → α} (ha : ∀ k, a k ∈ A) (h : ∀ k, ∀ z ∈ A, E (a k) ≤ E z + w k * P z) {I : ℝ}
    (hI : IsGLB (E '' A) I) : Tendsto (fun k => E (a k)) atTop (𝓝 I) := by
  refine tendsto_order.2 ⟨fun l hl => Eventually.of_forall fun k =>
    lt_of_lt_of_le hl (hI.1 ⟨a k, ha k, rfl⟩), fun u hu => ?_⟩
  obtain ⟨_, ⟨z, hz, rfl⟩, hzu⟩ : ∃ e ∈ E '' A, e < u := by
    by_contra hc
    push Not at hc
    exact absurd (hI.2 hc) (not_le.2 hu)
  have h1 : Tendsto (fun k => E z + w k * P z) atTop (𝓝 (E z)) := by
    simpa using (hw.mul_const (P z)).const_add (E z)
  filter_upwards [h1.eventually_lt_const hzu] with k hk
  exact lt_of_le_of_lt (h k z hz) hk

theorem abs_zip_le (f : ℝ → ℝ → ℝ) (g : ℝ → ℝ) (hf : ∀ a v, |f a v| ≤ g a * |v|) {B : ℝ} :
    ∀ (l v : List ℝ), (∀ a ∈ l, 0 ≤ g a) → 0 ≤ B → (∀ z ∈ v, |z| ≤ B) →
      |(List.zipWith f l v).sum| ≤ (l.map g).sum * B
  | [], v, _, hB, _ => by simp
  | a :: l, [], hg, hB, _ => by
    simp only [List.zipWith_nil_right, List.sum_nil, abs_zero]
    refine mul_nonneg (List.sum_nonneg fun z hz => ?_) hB
    obtain ⟨q, hq, rfl⟩ := List.mem_map.1 hz
    exact hg q hq
  | a :: l, z :: v, hg, hB, hv => by
    simp only [List.zipWith_cons_cons, List.sum_cons, List.map_cons]
    have h1 := abs_zip_le f g hf l v (fun q hq => hg q (List.mem_cons_of_mem _ hq)) hB
      fun q hq => hv q (List.mem_cons_of_mem _ hq)
    have h2 := mul_le_mul_of_nonneg_left (hv z (List.mem_cons_self ..)) (hg a (List.mem_cons_self ..))
    have h3 := abs_add_le (f a z) (List.zipWith f l v).sum
    have h4 := hf a z
    linarith

theorem dot_vanishes (l : List ℝ) {v : ℕ → List ℝ} {B : ℕ → ℝ} (hB0 : ∀ k, 0 ≤ B k)
    (hB : Tendsto B atTop (𝓝 0)) (h : ∀ k, ∀ z ∈ v k, |z| ≤ B k) :
    Tendsto (fun k => dot l (v k)) atTop (𝓝 0) := by
  refine squeeze_zero_norm (fun k => ?_) (by simpa using hB.const_mul (l.map fun a => |a|).sum)
  rw [Real.norm_eq_abs]
  exact abs_zip_le (fun a b => a * b) (fun a => |a|) (fun a v => (abs_mul a v).le) l (v k)
    (fun a _ => abs_nonneg a) (hB0 k) (h k)

theorem trend_vanishes (ρ : ℝ → ℝ → ℝ) {o : ℕ → ℝ} {μ : ℝ} (ho : Tendsto o atTop (𝓝 μ)) (cs : List ℝ)
    {v : ℕ → List ℝ} {B : ℕ → ℝ} (hB0 : ∀ k, 0 ≤ B k) (hB : Tendsto B atTop (𝓝 0))
    (h : ∀ k, ∀ z ∈ v k, |z| ≤ B k) (t : ℝ) : Tendsto (fun k => trendAt ρ (o k) cs (v k) t) atTop (𝓝 μ) := by
  unfold trendAt
  have : Tendsto (fun k => (List.zipWith (fun c b => b * ρ t c) cs (v k)).sum) atTop (𝓝 0) := by
    refine squeeze_zero_norm (fun k => ?_) (by simpa using hB.const_mul (cs.map fun c => |ρ t c|).sum)
    rw [Real.norm_eq_abs]
    exact abs_zip_le (fun c b => b * ρ t c) (fun c => |ρ t c|) (fun a v => by rw [abs_mul, mul_comm]) cs (v k)
      (fun a _ => abs_nonneg _) (hB0 k) (h k)
  simpa using ho.add this

theorem mean_vanishes {α : Type} (l : List α) (mode : α → String) (f : α → List ℝ) {g : ℕ → ℝ} {μ : ℝ}
    (hg : Tendsto g atTop (𝓝 μ)) {v : ℕ → α → List ℝ}
    (h : ∀ a ∈ l, ∃ B : ℕ → ℝ, (∀ k, 0 ≤ B k) ∧ Tendsto B atTop (𝓝 0) ∧ ∀ k, ∀ z ∈ v k a, |z| ≤ B k) :
    Tendsto (fun k => g k + (l.map fun a => combine (mode a) (g k) (dot (f a) (v k a))).sum) atTop (𝓝 μ) := by
  have : Tendsto (fun k => (l.map fun a => combine (mode a) (g k) (dot (f a) (v k a))).sum) atTop (𝓝 0) := by
    induction l with
    | nil => simp
    | cons a l ih =>
      obtain ⟨B, hB0, hB, hv⟩ := h a (List.mem_cons_self ..)
      have h1 := dot_vanishes (f a) hB0 hB hv
      have h2 : Tendsto (fun k => combine (mode a) (g k) (dot (f a) (v k a))) atTop (𝓝 0) := by
        unfold combine
        split
        · exact h1
        · simpa using hg.mul h1
      have h3 := ih fun b hb => h b (List.mem_cons_of_mem _ hb)
      simpa using h2.add h3
  simpa using hg.add this

/-- Scaling all noise levels by `r` divides the weighed error by the fourth power of `r`. -/
theorem weighedError_scaled {τ : Type} {n : Nat} {σ : Fin n → ℝ} {C : Matrix (Fin n) (Fin n) ℝ} {r : ℝ}
    (hr : r ≠ 0) (ts : List τ) (obs M : Fin n → τ → ℝ) :
    weighedError (panelCovariance (fun i => r * σ i) C) ts obs M
      = weighedError (panelCovariance σ C) ts obs M / r ^ 4 := by
  have h1 : panelCovariance (fun i => r * σ i) C = r ^ 4 • panelCovariance σ C := by
    funext i j
    rw [Matrix.smul_apply]
    unfold panelCovariance
    rw [smul_eq_mul, Finset.mul_sum, Finset.mul_sum, Finset.mul_sum]
    refine Finset.sum_congr rfl fun k _ => ?_
    ring
  have h2 : (r ^ 4 • panelCovariance σ C)⁻¹ = (r ^ 4)⁻¹ • (panelCovariance σ C)⁻¹ := by
    have hu : r ^ 4 ≠ 0 := pow_ne_zero _ hr
    by_cases hd : IsUnit (panelCovariance σ C).det
    · exact Matrix.inv_smul' _ (Units.mk0 _ hu) hd
    · have hd' : ¬ IsUnit (r ^ 4 • panelCovariance σ C).det := by
        rw [Matrix.det_smul, isUnit_iff_ne_zero]
        rw [isUnit_iff_ne_zero, not_not] at hd
        simp [hd]
      rw [Matrix.nonsing_inv_apply_not_isUnit _ hd, Matrix.nonsing_inv_apply_not_isUnit _ hd', smul_zero]
  unfold weighedError
  rw [h1, h2]
  induction ts with
  | nil => simp
  | cons t ts ih =>
    simp only [List.map_cons, List.sum_cons, ih]
    simp only [smul_mulVec, dotProduct_smul, smul_eq_mul]
    ring

/-! ## One series -/

section
variable {τ : Type} [LinearOrder τ]
variable {position : τ → ℤ} {compile : String → PyM (String → Bool)}
  {order : List String → List String} {days : τ → ℝ}
  {p : PiecewiseParams ℝ τ} {kind : String → EffectKind}
  {cfg : UniConfig (UsualAttrs τ) (Scale ℝ) τ ℝ (AnyData ℝ) ℝ} {y : Frame String τ ℝ} {c : String}
  {X : Option (Frame String τ ℝ)} {x : Frame String τ ℝ}
  {m : UniFit (UsualAttrs τ) (Scale ℝ) τ ℝ (AnyData ℝ) ℝ}

variable (hU : Usual position compile order days suggestLinear p kind cfg) (hp : Starts p)
  (hT : Training cfg y c X x) (hfit : uniFitData cfg y X = .ok m) {b : ℝ} (hb : p.priorScale = .scalar b)
  (hw : ∀ n ss mode s, kind n = .seasonal ss mode s → waves ss ≠ []) {sd : String → ℝ}
  (hk : ∀ fe ∈ usedEffects kind m, (kind fe.name).prior = normalLP 0 (sd fe.name))
  {s : PiecewiseState ℝ τ} {cs : List ℝ} (hs : m.trend.st.2 = .piecewise (some s)) (hcs : s.cps = [cs])
  {μ : ℝ} (hμ : s.offsetLoc = [μ]) {ns scale os : ℝ}
include hU hp hT hfit hb hw hk hs hcs hμ

/-- **C134**: as the noise level tends to zero, the sum of squared errors of the best fit tends to the least
that any parameters reach. -/
theorem C134_small (hb0 : 0 ≤ b) {σ : ℕ → ℝ} (hσ : ∀ k, σ k ≠ 0) (hl : Tendsto σ atTop (𝓝 0))
    {θ : ℕ → SiteEnv ℝ} {L : ℕ → ℝ} (hθ : ∀ k, BestIn kind .normal cs ns scale os (· = σ k) m (θ k) (L k)) {I : ℝ}
    (hI : IsGLB (squaredError position kind days s cs y c x m '' {θ' | UsualSizes kind cs (usedEffects kind m) θ'}) I) :
    Tendsto (fun k => squaredError position kind days s cs y c x m (θ k)) atTop (𝓝 I) := by
  refine vanishing_penalty (P := price kind m μ os b sd) (w := fun k => σ k ^ 2) (by simpa using hl.pow 2)
    (fun k => (hθ k).1) (fun k z hz => ?_) hI
  have h := (C125_oracle (os := os) hU hp hT hfit hb hw hk hs hcs hμ hb0 (hσ k) (hθ k) (withNoise_sizes hz (σ k))
    (by simp [siteScalar, withNoise])).1
  have e1 : withNoise z (σ k) "offset" = z "offset" := by simp [withNoise]
  have e2 : withNoise z (σ k) "changepoint_coefficients" = z "changepoint_coefficients" := by simp [withNoise]
  have e3 : ∀ n : String, withNoise z (σ k) (n ++ "/coefs") = z (n ++ "/coefs") := fun n => by
    unfold withNoise
    exact if_neg (coefs_site_ne _ (by decide))
  have e4 : squaredError position kind days s cs y c x m (withNoise z (σ k))
      = squaredError position kind days s cs y c x m z := by
    unfold squaredError usualMean usualTrend
    simp only [e1, e2, e3]
  have e5 : price kind m μ os b sd (withNoise z (σ k)) = price kind m μ os b sd z := by
    unfold price
    simp only [e1, e2, e3]
  rw [e4, e5] at h
  exact h

/-- **C134**: as the noise level grows without bound, the best fit tends to the centre of the offset's prior, at
every date. -/
theorem C134_large (hb0 : 0 < b) (hos : os ≠ 0) (hsd : ∀ n, sd n ≠ 0) {σ : ℕ → ℝ} (hσ : ∀ k, σ k ≠ 0)
    (hl : Tendsto σ atTop atTop) {θ : ℕ → SiteEnv ℝ} {L : ℕ → ℝ}
    (hθ : ∀ k, BestIn kind .normal cs ns scale os (· = σ k) m (θ k) (L k)) (t : τ) :
    Tendsto (fun k => usualMean position kind days s cs y x m (θ k) t) atTop (𝓝 μ) := by
  set V := (y.rows.map fun row => (row.val c - μ) ^ 2).sum with hVdef
  have hV0 : 0 ≤ V := by
    refine List.sum_nonneg fun v hv => ?_
    obtain ⟨w, -, rfl⟩ := List.mem_map.1 hv
    positivity
  have hq : Tendsto (fun k => V / σ k ^ 2) atTop (𝓝 0) :=
    Tendsto.const_div_atTop ((tendsto_pow_atTop two_ne_zero).comp hl) V
  have hq0 : ∀ k, 0 ≤ V / σ k ^ 2 := fun k => by positivity
  have hoff : Tendsto (fun k => (θ k "offset").data.headD 0) atTop (𝓝 μ) := by
    rw [tendsto_iff_norm_sub_tendsto_zero]
    have h1 : Tendsto (fun k => |os| * Real.sqrt (V / σ k ^ 2)) atTop (𝓝 0) := by
      have := (Real.continuous_sqrt.tendsto 0).comp hq
      simpa using (this.const_mul |os|)
    refine squeeze_zero (fun _ => norm_nonneg _) (fun k => ?_) h1
    have h := (C125_cost (os := os) hU hp hT hfit hb hw hk hs hcs hμ hb0.le (hσ k) (hθ k)).2
    rw [← hVdef] at h
    have h2 : ((θ k "offset").data.headD 0 - μ) ^ 2 / os ^ 2 ≤ V / σ k ^ 2 := by
      have hB : 0 ≤ 2 * ((θ k "changepoint_coefficients").data.map fun v => |v|).sum / b := by
        refine div_nonneg (mul_nonneg (by norm_num) (List.sum_nonneg fun v hv => ?_)) hb0.le
        obtain ⟨w, -, rfl⟩ := List.mem_map.1 hv
        positivity
      have hC : 0 ≤ ((usedEffects kind m).map fun fe =>
          ((θ k (fe.name ++ "/coefs")).data.map fun v => v ^ 2).sum / sd fe.name ^ 2).sum := by
        refine List.sum_nonneg fun v hv => ?_
        obtain ⟨fe, -, rfl⟩ := List.mem_map.1 hv
        refine div_nonneg (List.sum_nonneg fun v hv => ?_) (by positivity)
        obtain ⟨w, -, rfl⟩ := List.mem_map.1 hv
        positivity
      unfold price at h
      linarith
    rw [div_le_iff₀ (by positivity)] at h2
    rw [Real.norm_eq_abs, ← Real.sqrt_sq_eq_abs os, ← Real.sqrt_mul (by positivity), ← Real.sqrt_sq_eq_abs]
    exact Real.sqrt_le_sqrt (by linarith)
  have hbound := fun k => C125_bound (os := os) hU hp hT hfit hb hw hk hs hcs hμ hb0 hsd (hσ k) (hθ k)
  have htrend : Tendsto (fun k => usualTrend days s cs (θ k) t) atTop (𝓝 μ) := by
    refine trend_vanishes _ hoff cs (B := fun k => b * (V / σ k ^ 2) / 2) (fun k => ?_)
      (by simpa using (hq.const_mul b).div_const 2) (fun k z hz => ?_) _
    · have := hq0 k
      positivity
    · refine le_trans ?_ (hbound k).2.2
      refine List.single_le_sum (fun v hv => ?_) _ (List.mem_map.2 ⟨z, hz, rfl⟩)
      obtain ⟨w, -, rfl⟩ := List.mem_map.1 hv
      positivity
  refine mean_vanishes (usedEffects kind m) (fun fe => (kind fe.name).modeOf) (fun fe =>
    (kind fe.name).features position (firstPosition position y.times) fe.cols t (rowAt x t)) htrend
    (v := fun k fe => (θ k (fe.name ++ "/coefs")).data) fun fe hfe =>
      ⟨fun k => |sd fe.name| * Real.sqrt (V / σ k ^ 2), fun k => by positivity, ?_, fun k z hz => ?_⟩
  · have := (Real.continuous_sqrt.tendsto 0).comp hq
    simpa using (this.const_mul |sd fe.name|)
  · show |z| ≤ |sd fe.name| * _
    rw [← Real.sqrt_sq_eq_abs (sd fe.name), ← Real.sqrt_mul (by positivity), ← Real.sqrt_sq_eq_abs]
    exact Real.sqrt_le_sqrt ((hbound k).2.1 fe hfe z hz)

end

/-! ## Panels -/

section
variable {τ : Type} [LinearOrder τ] {days : τ → ℝ} {p : PiecewiseParams ℝ τ}
  {cfg : HierConfig (Option (PiecewiseState ℝ τ)) (Scale ℝ) τ (Tensor ℝ) ℝ} {mode : String → String}

variable (hV : ValidHier days p cfg) (hM : Modes mode cfg) {y : Frame String τ ℝ}
    (hy : RegularPanel y) {c : String} (hc : y.cols = [c]) {obs : List String → τ → ℝ} (hobs : Observed y c obs)
    {ss : List (List String)} (hss : SeriesOf y ss) (h2 : 2 ≤ ss.length) {ts : List τ} (hts : DatesOf y ts)
    {b : ℝ} (hb : p.priorScale = .scalar b) {X : Option (Frame String τ ℝ)} (hX : GivenExog X ss ts)
    (hcomp : ∀ c ∈ givenCols X, c ∉ cfg.shared → ∃ q, cfg.compile c = .ok q)
    {m : HierFit (Option (PiecewiseState ℝ τ)) (Scale ℝ) τ (Tensor ℝ) ℝ} (hfit : hierFitData cfg y X = .ok m)
    {s : PiecewiseState ℝ τ} (hs : m.trend.st.2 = some s) {x : Frame String τ ℝ}
    (hex : hierExog cfg (aggregate cfg.keep y) X = .ok (m.expand, x))
    {lkj : Nat → ℝ → Tensor ℝ → ℝ} {ns conc os : ℝ} {sd : String → ℝ}
    {σ : Fin ss.length → ℝ} {C : Matrix (Fin ss.length) (Fin ss.length) ℝ}
include hV hM hy hc hobs hss h2 hts hb hX hcomp hfit hs hex

/-- The parameters `z` with the noise of `θ`. -/
def noiseFrom (θ z : SiteEnv ℝ) : SiteEnv ℝ := fun n =>
  if n = "std_observation" ∨ n = "corr_matrix" then θ n else z n

omit hV hM hy hc hobs hss h2 hts hb hX hcomp hfit hs hex in
/-- Taking the noise from elsewhere changes neither the sizes, nor the means, nor the price. -/
theorem noiseFrom_same (θ z : SiteEnv ℝ) (hz : HierSizes s m z) : HierSizes s m (noiseFrom θ z) ∧
    noiseFrom θ z "std_observation" = θ "std_observation" ∧ noiseFrom θ z "corr_matrix" = θ "corr_matrix" ∧
    (∀ a t, panelMean days mode s ss (kept m.fitted) x (noiseFrom θ z) a t
      = panelMean days mode s ss (kept m.fitted) x z a t) ∧
    panelPrice s m os b sd (noiseFrom θ z) = panelPrice s m os b sd z := by
  have e1 : noiseFrom θ z "offset" = z "offset" := by simp [noiseFrom]
  have e2 : noiseFrom θ z "changepoint_coefficients" = z "changepoint_coefficients" := by simp [noiseFrom]
  have e3 : ∀ n : String, noiseFrom θ z (n ++ "/coefs") = z (n ++ "/coefs") := fun n => by
    unfold noiseFrom
    exact if_neg (by rintro (h | h) <;> exact absurd h (coefs_site_ne _ (by decide)))
  refine ⟨⟨⟨?_, ?_⟩, fun fe h1 h2 => ?_⟩, by simp [noiseFrom], by simp [noiseFrom], fun a t => ?_, ?_⟩
  · rw [e1]; exact hz.trend.1
  · rw [e2]; exact hz.trend.2
  · rw [e3]; exact hz.coefs fe h1 h2
  · unfold panelMean panelTrendAt seriesCoefs
    simp only [e1, e2, e3]
  · unfold panelPrice
    simp only [e1, e2, e3]

/-- The optimum against parameters with other noise, in the metric of the unscaled levels. -/
theorem panel_against {r : ℝ} (hr : 0 < r) {θ : SiteEnv ℝ} (hN : NoiseOf (fun i => r * σ i) C θ)
    (hθ : BestPanel lkj ns conc os (fun n => normalLP 0 (sd n)) s m θ) {z : SiteEnv ℝ} (hz : HierSizes s m z) :
    weighedError (panelCovariance σ C) ts (fun i t => obs (ss.get i) t)
        (fun i t => panelMean days mode s ss (kept m.fitted) x θ (ss.get i) t) + r ^ 4 * panelPrice s m os b sd θ
      ≤ weighedError (panelCovariance σ C) ts (fun i t => obs (ss.get i) t)
        (fun i t => panelMean days mode s ss (kept m.fitted) x z (ss.get i) t) + r ^ 4 * panelPrice s m os b sd z := by
  obtain ⟨q1, q2, q3, q4, q5⟩ := noiseFrom_same (days := days) (mode := mode) (ss := ss) (x := x) (os := os) (b := b)
    (sd := sd) θ z hz
  have h := (C131_penalised hV hM hy hc hobs hss h2 hts hb hX hcomp hfit hs hex hθ.1 hN).1 hθ _ q1 q2 q3
  simp only [q4, q5] at h
  rw [weighedError_scaled hr.ne', weighedError_scaled hr.ne'] at h
  have h4 : 0 < r ^ 4 := by positivity
  have h5 := mul_le_mul_of_nonneg_left h h4.le
  rw [mul_add, mul_add, mul_div_cancel₀ _ h4.ne', mul_div_cancel₀ _ h4.ne'] at h5
  exact h5

/-- **C134**: raising all noise levels of a panel by a common factor never raises the price of the best fit
and never lowers its weighed error. -/
theorem C134_noise {r : ℝ} (hr : 1 < r) {θ θ' : SiteEnv ℝ} (hN : NoiseOf σ C θ)
    (hN' : NoiseOf (fun i => r * σ i) C θ')
    (hθ : BestPanel lkj ns conc os (fun n => normalLP 0 (sd n)) s m θ)
    (hθ' : BestPanel lkj ns conc os (fun n => normalLP 0 (sd n)) s m θ') :
    panelPrice s m os b sd θ' ≤ panelPrice s m os b sd θ ∧
      weighedError (panelCovariance σ C) ts (fun i t => obs (ss.get i) t)
          (fun i t => panelMean days mode s ss (kept m.fitted) x θ (ss.get i) t)
        ≤ weighedError (panelCovariance σ C) ts (fun i t => obs (ss.get i) t)
          (fun i t => panelMean days mode s ss (kept m.fitted) x θ' (ss.get i) t) := by
  have h1 := panel_against (σ := σ) (r := 1) hV hM hy hc hobs hss h2 hts hb hX hcomp hfit hs hex one_pos
    (by simpa using hN) hθ hθ'.1
  have h3 := panel_against hV hM hy hc hobs hss h2 hts hb hX hcomp hfit hs hex (zero_lt_one.trans hr) hN' hθ' hθ.1
  exact weighing_mono (by norm_num) (by rw [one_pow]; exact one_lt_pow₀ hr (by norm_num)) h1 h3

/-- **C134**: widening the prior of one effect never lowers the sum of the squares of its coefficients in the
best fit of a panel, and never raises the weighed error plus the price of everything else. -/
theorem C134_scale {sd' : String → ℝ} {e : String} (h0 : 0 < sd e) (hlt : sd e < sd' e)
    (hother : ∀ n ≠ e, sd' n = sd n) {θ θ' : SiteEnv ℝ} (hN : NoiseOf σ C θ)
    (hθ : BestPanel lkj ns conc os (fun n => normalLP 0 (sd n)) s m θ)
    (hθ' : BestPanel lkj ns conc os (fun n => normalLP 0 (sd' n)) s m θ')
    (e1 : θ' "std_observation" = θ "std_observation") (e2 : θ' "corr_matrix" = θ "corr_matrix")
    {fe : FittedEffect (Option (PiecewiseState ℝ τ)) (Frame String τ ℝ) (Scale ℝ) τ ℝ (Tensor ℝ) ℝ}
    (hfe : fe ∈ kept m.fitted) (hn : fe.name = e) :
    ((θ (e ++ "/coefs")).data.map fun v => v ^ 2).sum ≤ ((θ' (e ++ "/coefs")).data.map fun v => v ^ 2).sum ∧
    weighedError (panelCovariance σ C) ts (fun i t => obs (ss.get i) t)
          (fun i t => panelMean days mode s ss (kept m.fitted) x θ' (ss.get i) t)
        + (panelPrice s m os b sd θ' - ((θ' (e ++ "/coefs")).data.map fun v => v ^ 2).sum / sd e ^ 2)
      ≤ weighedError (panelCovariance σ C) ts (fun i t => obs (ss.get i) t)
          (fun i t => panelMean days mode s ss (kept m.fitted) x θ (ss.get i) t)
        + (panelPrice s m os b sd θ - ((θ (e ++ "/coefs")).data.map fun v => v ^ 2).sum / sd e ^ 2) := by
  obtain ⟨h, -⟩ := panel_facts hV hM hy hc hobs hss h2 hts hb hX hcomp hfit hs hex
  have hN' : NoiseOf σ C θ' := ⟨by rw [e1]; exact hN.size, by rw [e1]; exact hN.levels, hN.pos,
    by rw [e2]; exact hN.matrix, hN.factor⟩
  have a1 := (C131_penalised hV hM hy hc hobs hss h2 hts hb hX hcomp hfit hs hex hθ.1 hN).1 hθ θ' hθ'.1 e1 e2
  have a2 := (C131_penalised hV hM hy hc hobs hss h2 hts hb hX hcomp hfit hs hex hθ'.1 hN').1 hθ' θ hθ.1 e1.symm e2.symm
  have hnd : ((kept m.fitted).map FittedEffect.name).Nodup :=
    (List.filter_sublist.map FittedEffect.name).nodup h.nodup
  have hsplit : ∀ ψ : SiteEnv ℝ, panelPrice s m os b sd ψ = panelPrice s m os b sd' ψ
      + ((ψ (e ++ "/coefs")).data.map fun v => v ^ 2).sum * (1 / sd e ^ 2 - 1 / sd' e ^ 2) := by
    intro ψ
    have key : ∀ l : List (FittedEffect (Option (PiecewiseState ℝ τ)) (Frame String τ ℝ) (Scale ℝ) τ ℝ (Tensor ℝ) ℝ),
        (l.map FittedEffect.name).Nodup →
        (l.map fun fe => ((ψ (fe.name ++ "/coefs")).data.map fun v => v ^ 2).sum / sd fe.name ^ 2).sum
          = (l.map fun fe => ((ψ (fe.name ++ "/coefs")).data.map fun v => v ^ 2).sum / sd' fe.name ^ 2).sum
            + if e ∈ l.map FittedEffect.name then
                ((ψ (e ++ "/coefs")).data.map fun v => v ^ 2).sum * (1 / sd e ^ 2 - 1 / sd' e ^ 2) else 0 := by
      intro l
      induction l with
      | nil => simp
      | cons a l ih =>
        intro hl
        rw [List.map_cons, List.nodup_cons] at hl
        simp only [List.map_cons, List.sum_cons, ih hl.2, List.mem_cons]
        by_cases ha : e = a.name
        · subst ha
          rw [if_neg hl.1, if_pos (Or.inl rfl)]
          ring
        · rw [hother a.name (Ne.symm ha)]
          simp only [ha, false_or]
          ring
    unfold panelPrice
    rw [key _ hnd, if_pos (hn ▸ List.mem_map_of_mem hfe)]
    ring
  have hd : 1 / sd' e ^ 2 < 1 / sd e ^ 2 := by
    have : sd e ^ 2 < sd' e ^ 2 := by nlinarith
    exact one_div_lt_one_div_of_lt (by positivity) this
  have hd0 : 0 < 1 / sd' e ^ 2 := by
    have := h0.trans hlt
    positivity
  have b1 := hsplit θ
  have b2 := hsplit θ'
  simp only [div_eq_mul_inv, one_mul] at a1 a2 b1 b2 hd hd0 ⊢
  exact weighing_mono hd0 hd (by linarith) (by linarith)

/-- **C134**: as the noise levels of a panel tend to zero in fixed proportions, the weighed error of the best
fit tends to the least that any parameters reach. -/
theorem C134_panel_small (hb0 : 0 ≤ b) {r : ℕ → ℝ} (hr : ∀ k, 0 < r k) (hl : Tendsto r atTop (𝓝 0))
    {θ : ℕ → SiteEnv ℝ} (hN : ∀ k, NoiseOf (fun i => r k * σ i) C (θ k))
    (hθ : ∀ k, BestPanel lkj ns conc os (fun n => normalLP 0 (sd n)) s m (θ k)) {I : ℝ}
    (hI : IsGLB ((fun z => weighedError (panelCovariance σ C) ts (fun i t => obs (ss.get i) t)
      (fun i t => panelMean days mode s ss (kept m.fitted) x z (ss.get i) t)) '' {z | HierSizes s m z}) I) :
    Tendsto (fun k => weighedError (panelCovariance σ C) ts (fun i t => obs (ss.get i) t)
      (fun i t => panelMean days mode s ss (kept m.fitted) x (θ k) (ss.get i) t)) atTop (𝓝 I) := by
  refine vanishing_penalty (P := panelPrice s m os b sd) (w := fun k => r k ^ 4) (by simpa using hl.pow 4)
    (fun k => (hθ k).1) (fun k z hz => ?_) hI
  have h := panel_against (σ := σ) hV hM hy hc hobs hss h2 hts hb hX hcomp hfit hs hex (hr k) (hN k) (hθ k) hz
  have h1 := mul_nonneg (pow_nonneg (hr k).le 4)
    (panelPrice_nonneg (s := s) (m := m) (os := os) (sd := sd) hb0 (θ k))
  linarith

/-- **C134**: as the noise levels of a panel grow without bound in fixed proportions, the best fit of every
series tends to the centre of its offset's prior, at every date. -/
theorem C134_panel_large (hb0 : 0 < b) (hos : os ≠ 0) (hsd : ∀ n, sd n ≠ 0) {r : ℕ → ℝ} (hr : ∀ k, 0 < r k)
    (hl : Tendsto r atTop atTop) {θ : ℕ → SiteEnv ℝ} (hN : ∀ k, NoiseOf (fun i => r k * σ i) C (θ k))
    (hθ : ∀ k, BestPanel lkj ns conc os (fun n => normalLP 0 (sd n)) s m (θ k)) (i : Fin ss.length) (t : τ) :
    Tendsto (fun k => panelMean days mode s ss (kept m.fitted) x (θ k) (ss.get i) t) atTop
      (𝓝 (s.offsetLoc.getD i 0)) := by
  set W := weighedError (panelCovariance σ C) ts (fun i t => obs (ss.get i) t)
      (fun i _ => s.offsetLoc.getD i 0) with hWdef
  have hW0 : 0 ≤ W := weighedError_nonneg σ C ts _ _
  have hq : Tendsto (fun k => W / r k ^ 4) atTop (𝓝 0) :=
    Tendsto.const_div_atTop ((tendsto_pow_atTop (by norm_num)).comp hl) W
  have hq0 : ∀ k, 0 ≤ W / r k ^ 4 := fun k => by positivity
  have hsq := (Real.continuous_sqrt.tendsto 0).comp hq
  rw [Real.sqrt_zero] at hsq
  have hnd : ss.Nodup := hss.sorted.imp fun h => ne_of_lt h
  have hidx : ss.idxOf (ss.get i) = i := List.Nodup.idxOf_getElem hnd _ _
  have hbound := fun k => C131_bound (σ := fun i => r k * σ i) (W := W / r k ^ 4) hV hM hy hc hobs hss h2 hts hb hX
    hcomp hfit hs hex hb0 hos hsd (hN k) (hθ k) (weighedError_scaled (hr k).ne' _ _ _).symm
  have hoff : Tendsto (fun k => (θ k "offset").data.getD i 0) atTop (𝓝 (s.offsetLoc.getD i 0)) := by
    rw [tendsto_iff_norm_sub_tendsto_zero]
    have h1 : Tendsto (fun k => |os| * Real.sqrt (W / r k ^ 4)) atTop (𝓝 0) := by
      simpa using (hsq.const_mul |os|)
    refine squeeze_zero (fun _ => norm_nonneg _) (fun k => ?_) h1
    rw [Real.norm_eq_abs, ← Real.sqrt_sq_eq_abs os, ← Real.sqrt_mul (by positivity), ← Real.sqrt_sq_eq_abs]
    exact Real.sqrt_le_sqrt ((hbound k).2.1 i i.2)
  have htrend : Tendsto (fun k => panelTrendAt days s ss (θ k) (ss.get i) t) atTop (𝓝 (s.offsetLoc.getD i 0)) := by
    unfold panelTrendAt
    rw [hidx]
    refine trend_vanishes _ hoff _ (B := fun k => b * (W / r k ^ 4) / 2) (fun k => ?_)
      (by simpa using (hq.const_mul b).div_const 2) (fun k z hz => ?_) _
    · have := hq0 k
      positivity
    · refine le_trans ?_ (hbound k).2.2.2
      refine List.single_le_sum (fun v hv => ?_) _ (List.mem_map.2 ⟨z, ?_, rfl⟩)
      · obtain ⟨w, -, rfl⟩ := List.mem_map.1 hv
        positivity
      · rw [List.getD_eq_getElem?_getD] at hz
        unfold seriesCoefs at hz
        cases hg : ((s.cps.map List.length).splitLengths (θ k "changepoint_coefficients").data)[(i : Nat)]? with
        | none => rw [hg] at hz; simp at hz
        | some v =>
          rw [hg] at hz
          exact mem_splitLengths (List.mem_of_getElem? hg) hz
  refine mean_vanishes (kept m.fitted) (fun fe => mode fe.name) (fun fe => fe.cols.map (cellAt x (ss.get i) t)) htrend
    (v := fun k fe => (θ k (fe.name ++ "/coefs")).data) fun fe hfe =>
      ⟨fun k => |sd fe.name| * Real.sqrt (W / r k ^ 4), fun k => by positivity, ?_, fun k z hz => ?_⟩
  · simpa using (hsq.const_mul |sd fe.name|)
  · show |z| ≤ |sd fe.name| * _
    rw [← Real.sqrt_sq_eq_abs (sd fe.name), ← Real.sqrt_mul (by positivity), ← Real.sqrt_sq_eq_abs]
    exact Real.sqrt_le_sqrt ((hbound k).2.2.1 fe hfe z hz)

end

/-! ## Cases -/

/-- Best fits for the noise levels 1, 2, 3, … exist, and tend to the first observation; those for 1, 1/2,
1/3, … tend to least squares. -/
example : ∃ m s cs, ∃ θ ψ : ℕ → SiteEnv ℝ, ∃ L K : ℕ → ℝ, ∃ I, uniFitData exCfg96 exY85 (some exX97) = .ok m ∧
    (∀ k : ℕ, BestIn exKind96 .normal cs (1 / 20) 1 (1 / 10) (· = ((k : ℝ) + 1)) m (θ k) (L k)) ∧
    (∀ k : ℕ, BestIn exKind96 .normal cs (1 / 20) 1 (1 / 10) (· = 1 / ((k : ℝ) + 1)) m (ψ k) (K k)) ∧
    (∀ t, Tendsto (fun k => usualMean id exKind96 (fun n : ℤ => (n : ℝ)) s cs exY85 exX97 m (θ k) t) atTop (𝓝 1)) ∧
    IsGLB (squaredError id exKind96 (fun n : ℤ => (n : ℝ)) s cs exY85 "y" exX97 m ''
      {θ' | UsualSizes exKind96 cs (usedEffects exKind96 m) θ'}) I ∧
    Tendsto (fun k => squaredError id exKind96 (fun n : ℤ => (n : ℝ)) s cs exY85 "y" exX97 m (ψ k)) atTop (𝓝 I) := by
  have hmono : StrictMono fun n : ℤ => (n : ℝ) := fun _ _ h => Int.cast_lt.2 h
  obtain ⟨m, hm⟩ := C98_fits exUsual96 exValid123 hmono exTraining123 (by simp [exY85]) (by rintro _ ⟨⟩ a ha; exact ha)
  obtain ⟨s, cs, hs, hcs, -⟩ := usual_coords exUsual96 exTraining123 hm (b := 2) rfl exWaves123
  have hpc : ∀ n, Continuous (exKind96 n).prior := fun n => by
    rw [exPrior125]
    exact continuous_normalLP _ _
  have hpt : ∀ n, Tendsto (exKind96 n).prior (cocompact ℝ) atBot := fun n => by
    rw [exPrior125]
    exact tendsto_normalLP _ (by unfold exSd125; split <;> norm_num)
  have hbest := fun σ => bestIn_exists exUsual96 (.inl rfl) exTraining123 hm (b := 2) rfl (by norm_num) exWaves123 hpc hpt hs hcs
    (1 / 20) 1 σ (os := 1 / 10) (by norm_num)
  choose F G hFG using hbest
  have hμ : s.offsetLoc = [1] := by
    have := first_location exUsual96 rfl rfl hmono exTraining123 (by simp [exY85]) hm hs
    simpa [exY85] using this
  have hI : IsGLB (squaredError id exKind96 (fun n : ℤ => (n : ℝ)) s cs exY85 "y" exX97 m ''
      {θ' | UsualSizes exKind96 cs (usedEffects exKind96 m) θ'}) _ :=
    isGLB_csInf ⟨_, F 1, (hFG 1).1, rfl⟩ ⟨0, by
      rintro _ ⟨z, -, rfl⟩
      refine List.sum_nonneg fun v hv => ?_
      obtain ⟨w, -, rfl⟩ := List.mem_map.1 hv
      positivity⟩
  refine ⟨m, s, cs, _, _, _, _, _, hm, fun k => hFG _, fun k => hFG _, fun t => ?_, hI, ?_⟩
  · exact C134_large exUsual96 (.inl rfl) exTraining123 hm (b := 2) rfl exWaves123 (sd := exSd125)
      (fun fe _ => exPrior125 fe.name) hs hcs hμ (by norm_num) (by norm_num)
      (by intro n; unfold exSd125; split <;> norm_num) (σ := fun k => (k : ℝ) + 1) (fun k => by positivity)
      (tendsto_natCast_atTop_atTop.atTop_add tendsto_const_nhds) (fun k => hFG _) t
  · exact C134_small exUsual96 (.inl rfl) exTraining123 hm (b := 2) rfl exWaves123 (sd := exSd125)
      (fun fe _ => exPrior125 fe.name) hs hcs hμ (by norm_num) (σ := fun k => 1 / ((k : ℝ) + 1))
      (fun k => by positivity) tendsto_one_div_add_atTop_nhds_zero_nat (fun k => hFG _) hI

/-- Two products with correlated noise: best fits for the noise levels (k + 1, 2 (k + 1)) and prior scales 2 and 3
exist, and the theorems apply to them. -/
example : ∃ m s x, ∃ θ : ℕ → SiteEnv ℝ, ∃ ψ : SiteEnv ℝ, hierFitData exCfg114 exY113 (some exX113) = .ok m ∧
    (∀ k : ℕ, NoiseOf (fun i => ((k : ℝ) + 1) * ![1, 2] i) exL46 (θ k)) ∧
    (∀ k : ℕ, BestPanel (fun _ _ _ => 0) 1 1 (1 / 10) (fun _ => normalLP 0 2) s m (θ k)) ∧
    BestPanel (fun _ _ _ => 0) 1 1 (1 / 10) (fun n => normalLP 0 (if n = "e" then 3 else 2)) s m ψ ∧
    panelPrice s m (1 / 10) (1 / 10) (fun _ => 2) (θ 1) ≤ panelPrice s m (1 / 10) (1 / 10) (fun _ => 2) (θ 0) ∧
    (∀ fe ∈ kept m.fitted, fe.name = "e" → ((θ 0 ("e" ++ "/coefs")).data.map fun v => v ^ 2).sum
      ≤ ((ψ ("e" ++ "/coefs")).data.map fun v => v ^ 2).sum) ∧
    ∀ (i : Fin 2) (t : ℤ), Tendsto (fun k => panelMean (fun t : ℤ => (t : ℝ)) (fun _ => "additive") s
      [["p"], ["q"]] (kept m.fitted) x (θ k) ([["p"], ["q"]].get i) t) atTop (𝓝 (s.offsetLoc.getD i 0)) := by
  have hX := exExog113 (ts := [0, 1]) (by simp) (by simp) (by simp)
  have hc : ∀ c ∈ givenCols (some exX113), c ∉ exCfg114.shared → ∃ q, exCfg114.compile c = .ok q :=
    fun _ _ _ => ⟨_, rfl⟩
  have k1 : ∀ r : ℝ, VectorSite (n := 2) ⟨[2], [r, r * 2]⟩ (fun i => r * ![1, 2] i) := fun r =>
    ⟨rfl, fun i => by fin_cases i <;> simp⟩
  have k2 : ∀ r : ℝ, 0 < r → ∀ i, (0 : ℝ) < r * ![1, 2] i := fun r hr i => by fin_cases i <;> simp [hr]
  have k3 : MatrixSite (exθ90 "corr_matrix") exL46 := ⟨rfl, fun i j => by fin_cases i <;> fin_cases j <;> rfl⟩
  have hobs : Observed exY113 "y" fun a t => cellAt exY113 a t "y" :=
    fun r hr _ => cellAt_of_mem exPanel113.ordered hr (by simp [exY113])
  obtain ⟨m, s, h1, hs, h⟩ := C114_exists exValid114 exModes114 exPanel113 exSeries113 (by simp) exDates113
    (b := 1 / 10) rfl (by norm_num) hX hc
  have hbest := fun k : ℕ => h (fun _ _ _ => 0) 1 1 (1 / 10) (fun _ => normalLP 0 2) (by norm_num)
    (fun _ => continuous_normalLP 0 2) (fun _ => tendsto_normalLP 0 two_ne_zero)
    ⟨[2], [((k : ℝ) + 1), ((k : ℝ) + 1) * 2]⟩ (exθ90 "corr_matrix") (fun i => ((k : ℝ) + 1) * ![1, 2] i) exL46 rfl (k1 _)
    (k2 _ (by positivity)) k3 exL46_factor
  choose θ hstd hcorr hθ using hbest
  obtain ⟨ψ, hψ1, hψ2, hψ⟩ := h (fun _ _ _ => 0) 1 1 (1 / 10) (fun n => normalLP 0 (if n = "e" then 3 else 2))
    (by norm_num) (fun _ => continuous_normalLP 0 _) (fun _ => tendsto_normalLP 0 (by split <;> norm_num))
    (θ 0 "std_observation") (exθ90 "corr_matrix") (fun i => (((0 : ℕ) : ℝ) + 1) * ![1, 2] i) exL46 (by rw [hstd]; rfl)
    (by rw [hstd]; exact k1 _) (k2 _ (by positivity)) k3 exL46_factor
  have hN : ∀ k : ℕ, NoiseOf (n := 2) (fun i => ((k : ℝ) + 1) * ![1, 2] i) exL46 (θ k) := fun k =>
    ⟨by rw [hstd]; rfl, by rw [hstd]; exact k1 _, k2 _ (by positivity), by rw [hcorr]; exact k3, exL46_factor⟩
  obtain ⟨x, s', hex, h', -⟩ := hier_posterior exValid114 exModes114 exPanel113 rfl hobs exSeries113 (by simp) exDates113
    trivial hX hc h1
  have := h'.state
  rw [hs] at this
  cases this
  refine ⟨m, s, x, θ, ψ, h1, hN, hθ, hψ, ?_, fun fe hfe hn => ?_, fun i t => ?_⟩
  · have h0 := hN 0
    have h2 := hN 1
    simp only [Nat.cast_zero, zero_add, one_mul, Nat.cast_one] at h0 h2
    exact (C134_noise exValid114 exModes114 exPanel113 rfl hobs exSeries113 (by simp) exDates113 (b := 1 / 10) rfl hX hc
      h1 hs hex (sd := fun _ => 2) (r := 1 + 1) (by norm_num) h0 h2 (hθ 0) (hθ 1)).1
  · exact (C134_scale exValid114 exModes114 exPanel113 rfl hobs exSeries113 (by simp) exDates113 (b := 1 / 10) rfl hX hc
      h1 hs hex (sd := fun _ => 2) (sd' := fun n => if n = "e" then 3 else 2) (e := "e") (by norm_num) (by norm_num)
      (fun n hn => if_neg hn) (hN 0) (hθ 0) hψ hψ1 (by rw [hψ2, hcorr]) hfe hn).1
  · exact C134_panel_large exValid114 exModes114 exPanel113 rfl hobs exSeries113 (by simp) exDates113 (b := 1 / 10) rfl hX
      hc h1 hs hex (by norm_num) (by norm_num) (sd := fun _ => 2) (fun _ => two_ne_zero)
      (r := fun k => (k : ℝ) + 1) (fun k => by positivity)
      (tendsto_natCast_atTop_atTop.atTop_add tendsto_const_nhds) hN hθ i t
end PV
