import Mathlib.Analysis.Calculus.LocalExtr.Basic
import Verif.Props.PriorScale

/-!
# C121: what the best fit balances

At the maximum a posteriori fit of a normal model, the correlation of the residuals with whatever a
parameter acts on equals the pull of its prior, and the noise level follows from the residuals.
-/

set_option linter.unusedSectionVars false

namespace PV
open Tensor

/-! ## Maxima of concave functions of one number -/

/-- A slope at an interior maximum vanishes. -/
theorem slope_zero {A B ε : ℝ} (hε : 0 < ε) (h : ∀ t, |t| < ε → t * A - t ^ 2 * B ≤ 0) : A = 0 := by
  by_contra hA
  have hB : (0 : ℝ) < |B| + 1 := by positivity
  have key : ∀ A' : ℝ, 0 < A' → (∀ t, 0 < t → t < ε → t * A' - t ^ 2 * B ≤ 0) → False := by
    intro A' hA' h'
    set t := min (ε / 2) (A' / (2 * (|B| + 1))) with ht
    have t0 : 0 < t := lt_min (by linarith) (by positivity)
    have t1 : t < ε := (min_le_left _ _).trans_lt (by linarith)
    have t2 : t ≤ A' / (2 * (|B| + 1)) := min_le_right _ _
    have t3 : t * (|B| + 1) ≤ A' / 2 := by
      rw [le_div_iff₀ (by positivity)] at t2
      linarith
    have h1 := h' t t0 t1
    have h2 : B ≤ |B| := le_abs_self B
    have h3 : 0 < t * (A' - t * B) := by
      refine mul_pos t0 ?_
      nlinarith
    nlinarith
  rcases lt_or_gt_of_ne hA with h0 | h0
  · refine key (-A) (by linarith) fun t t0 t1 => ?_
    have := h (-t) (by rw [abs_neg, abs_of_pos t0]; exact t1)
    nlinarith
  · exact key A h0 fun t t0 t1 => h t (by rw [abs_of_pos t0]; exact t1)

/-- The same with an absolute value. -/
theorem slope_abs {A B b δ : ℝ} (hb : 0 < b) (h : ∀ t, t * A - t ^ 2 * B ≤ (|δ + t| - |δ|) / b) :
    |A| ≤ 1 / b ∧ (0 < δ → A = 1 / b) ∧ (δ < 0 → A = -(1 / b)) := by
  have hle : ∀ A' : ℝ, (∀ t, 0 < t → t * A' - t ^ 2 * B ≤ t / b) → A' ≤ 1 / b := by
    intro A' h'
    refine le_of_forall_pos_le_add fun e he => ?_
    have hB : (0 : ℝ) < |B| + 1 := by positivity
    set t := e / (|B| + 1) with ht
    have t0 : 0 < t := by positivity
    have h1 := h' t t0
    have h2 : t * B ≤ e := by
      have : t * (|B| + 1) = e := by rw [ht]; field_simp
      nlinarith [le_abs_self B]
    have h3 : t * (A' - t * B) ≤ t * (1 / b) := by
      calc t * (A' - t * B) = t * A' - t ^ 2 * B := by ring
        _ ≤ t / b := h1
        _ = t * (1 / b) := by ring
    have := le_of_mul_le_mul_left h3 t0
    linarith
  refine ⟨abs_le.2 ⟨?_, ?_⟩, fun hδ => ?_, fun hδ => ?_⟩
  · have := hle (-A) fun t t0 => ?_
    · linarith
    · have h1 := h (-t)
      have h2 : (|δ + -t| - |δ|) / b ≤ t / b := by
        refine div_le_div_of_nonneg_right ?_ hb.le
        have := abs_add_le δ (-t)
        rw [abs_neg, abs_of_pos t0] at this
        linarith
      nlinarith
  · refine hle A fun t t0 => (h t).trans ?_
    refine div_le_div_of_nonneg_right ?_ hb.le
    have := abs_add_le δ t
    rw [abs_of_pos t0] at this
    linarith
  · have := slope_zero (A := A - 1 / b) (B := B) hδ fun t ht => ?_
    · linarith
    · have h1 := h t
      rw [abs_of_pos (by linarith [neg_abs_le t] : 0 < δ + t), abs_of_pos hδ] at h1
      have : (δ + t - δ) / b = t * (1 / b) := by ring
      rw [this] at h1
      linarith
  · have := slope_zero (A := A + 1 / b) (B := B) (neg_pos.2 hδ) fun t ht => ?_
    · linarith
    · have h1 := h t
      rw [abs_of_neg (by linarith [le_abs_self t] : δ + t < 0), abs_of_neg hδ] at h1
      have : (-(δ + t) - -δ) / b = -(t * (1 / b)) := by ring
      rw [this] at h1
      linarith

/-! ## Moving one entry of a site -/

/-- The parameters with `h` added to entry `j` of the site `n`. -/
def bump (θ : SiteEnv ℝ) (n : String) (j : Nat) (h : ℝ) : SiteEnv ℝ := fun k =>
  if k = n then ⟨(θ n).shape, (θ n).data.modify j (· + h)⟩ else θ k

theorem bump_ne {θ : SiteEnv ℝ} {n k : String} {j : Nat} {h : ℝ} (hk : k ≠ n) : bump θ n j h k = θ k := if_neg hk

theorem bump_data {θ : SiteEnv ℝ} {n : String} {j : Nat} {h : ℝ} :
    (bump θ n j h n).data = (θ n).data.modify j (· + h) := by
  unfold bump
  rw [if_pos rfl]

theorem bump_length {θ : SiteEnv ℝ} {n k : String} {j : Nat} {h : ℝ} :
    (bump θ n j h k).data.length = (θ k).data.length := by
  by_cases hk : k = n
  · subst hk
    rw [bump_data, List.length_modify]
  · rw [bump_ne hk]

theorem sum_modify (f : ℝ → ℝ) (h : ℝ) : ∀ (l : List ℝ) (j : Nat), j < l.length →
    ((l.modify j (· + h)).map f).sum = (l.map f).sum + (f (l.getD j 0 + h) - f (l.getD j 0))
  | a :: l, 0, _ => by
    simp
    ring
  | a :: l, j + 1, hj => by
    have := sum_modify f h l j (by simpa using hj)
    simp only [List.modify_succ_cons, List.map_cons, List.sum_cons, List.getD_cons_succ]
    linarith

theorem dot_modify (h : ℝ) : ∀ (a l : List ℝ) (j : Nat), j < l.length →
    dot a (l.modify j (· + h)) = dot a l + h * a.getD j 0
  | [], l, j, _ => by simp [dot]
  | x :: a, v :: l, 0, _ => by
    simp [dot]
    ring
  | x :: a, v :: l, j + 1, hj => by
    have := dot_modify h a l j (by simpa using hj)
    simp only [dot] at this
    simp only [dot, List.modify_succ_cons, List.zipWith_cons_cons, List.sum_cons, List.getD_cons_succ]
    linarith

theorem trendAt_dot (ρ : ℝ → ℝ → ℝ) (o : ℝ) (cs bs : List ℝ) (t : ℝ) :
    trendAt ρ o cs bs t = o + dot (cs.map (ρ t)) bs := by
  unfold trendAt dot
  rw [List.zipWith_map_left]
  simp only [mul_comm]

theorem sum_normal_move {α : Type} (M a v : α → ℝ) {σ : ℝ} (hσ : σ ≠ 0) (h : ℝ) : ∀ l : List α,
    (l.map fun r => normalLP (M r + h * a r) σ (v r)).sum
      = (l.map fun r => normalLP (M r) σ (v r)).sum
        + (h * ((l.map fun r => (v r - M r) * a r).sum / σ ^ 2)
          - h ^ 2 * ((l.map fun r => a r ^ 2).sum / (2 * σ ^ 2)))
  | [] => by simp
  | r :: l => by
    simp only [List.map_cons, List.sum_cons, sum_normal_move M a v hσ h l]
    have : normalLP (M r + h * a r) σ (v r) = normalLP (M r) σ (v r)
        + (h * ((v r - M r) * a r / σ ^ 2) - h ^ 2 * (a r ^ 2 / (2 * σ ^ 2))) := by
      unfold normalLP
      field_simp
      ring
    rw [this]
    ring

/-! ## Specification -/

section
variable {τ : Type} [LinearOrder τ]
variable {position : τ → ℤ} {compile : String → PyM (String → Bool)}
  {order : List String → List String} {days : τ → ℝ}
  {suggest : List ℝ → Tensor ℝ → PyM (List ℝ × List ℝ)}
  {p : PiecewiseParams ℝ τ} {kind : String → EffectKind}
  {cfg : UniConfig (UsualAttrs τ) (Scale ℝ) τ ℝ (AnyData ℝ) ℝ} {y : Frame String τ ℝ} {c : String}
  {X : Option (Frame String τ ℝ)} {x : Frame String τ ℝ}
  {m : UniFit (UsualAttrs τ) (Scale ℝ) τ ℝ (AnyData ℝ) ℝ}

/-- Observation minus fitted mean. -/
noncomputable def residual (position : τ → ℤ) (kind : String → EffectKind) (days : τ → ℝ)
    (s : PiecewiseState ℝ τ) (cs : List ℝ) (y : Frame String τ ℝ) (c : String) (x : Frame String τ ℝ)
    (m : UniFit (UsualAttrs τ) (Scale ℝ) τ ℝ (AnyData ℝ) ℝ) (θ : SiteEnv ℝ) (row : Row String τ ℝ) : ℝ :=
  row.val c - usualMean position kind days s cs y x m θ row.time

/-- What one unit of trend adds to the mean: itself, and what the multiplicative effects make of it. -/
noncomputable def trendGain (position : τ → ℤ) (kind : String → EffectKind) (y x : Frame String τ ℝ)
    (m : UniFit (UsualAttrs τ) (Scale ℝ) τ ℝ (AnyData ℝ) ℝ) (θ : SiteEnv ℝ) (t : τ) : ℝ :=
  1 + ((usedEffects kind m).map fun fe => if (kind fe.name).modeOf = "additive" then 0 else
    dot ((kind fe.name).features position (firstPosition position y.times) fe.cols t (rowAt x t))
      (θ (fe.name ++ "/coefs")).data).sum

/-- What one unit of an effect adds to the mean. -/
noncomputable def effectGain (mode : String) (trend : ℝ) : ℝ := if mode = "additive" then 1 else trend

/-! ## The balance -/

/-- The log prior of trend and effects. -/
noncomputable def usualPrior (kind : String → EffectKind) (m : UniFit (UsualAttrs τ) (Scale ℝ) τ ℝ (AnyData ℝ) ℝ)
    (μ os b : ℝ) (θ : SiteEnv ℝ) : ℝ :=
  normalLP μ os ((θ "offset").data.headD 0) + ((θ "changepoint_coefficients").data.map (laplaceLP 0 b)).sum
    + ((usedEffects kind m).map fun fe => ((θ (fe.name ++ "/coefs")).data.map (kind fe.name).prior).sum).sum

theorem bump_sizes {cs : List ℝ} {θ : SiteEnv ℝ} {n : String} {j : Nat} {h : ℝ}
    (hz : UsualSizes kind cs (usedEffects kind m) θ) : UsualSizes kind cs (usedEffects kind m) (bump θ n j h) := by
  refine ⟨⟨?_, bump_length.trans hz.trend.2⟩, bump_length.trans hz.noise, fun fe hfe => bump_length.trans (hz.coefs fe hfe)⟩
  obtain ⟨o, ho⟩ := hz.trend.1
  by_cases hn : "offset" = n
  · subst hn
    unfold bump
    rw [if_pos rfl, ho]
    cases j with
    | zero => exact ⟨o + h, by simp⟩
    | succ j => exact ⟨o, by simp⟩
  · rw [bump_ne hn]
    exact ⟨o, ho⟩

/-- Moving one entry does not improve a best fit. -/
theorem best_move (hU : Usual position compile order days suggest p kind cfg)
    (hT : Training cfg y c X x) (hfit : uniFitData cfg y X = .ok m) {b : ℝ} (hb : p.priorScale = .scalar b)
    (hw : ∀ n ss mode s, kind n = .seasonal ss mode s → waves ss ≠ [])
    {s : PiecewiseState ℝ τ} {cs : List ℝ} (hs : m.trend.st.2 = .piecewise (some s)) (hcs : s.cps = [cs])
    {μ : ℝ} (hμ : s.offsetLoc = [μ]) {ns scale os : ℝ} {N : ℝ → Prop} {θ : SiteEnv ℝ} {L : ℝ}
    (hθ : BestIn kind .normal cs ns scale os N m θ L) (hσ : 0 < siteScalar θ "noise_scale")
    {n : String} (hn : "noise_scale" ≠ n) {j : Nat} {h : ℝ} {a : τ → ℝ}
    (hmean : ∀ t, usualMean position kind days s cs y x m (bump θ n j h) t
      = usualMean position kind days s cs y x m θ t + h * a t) :
    h * ((y.rows.map fun row => residual position kind days s cs y c x m θ row * a row.time).sum
        / siteScalar θ "noise_scale" ^ 2)
      - h ^ 2 * ((y.rows.map fun row => a row.time ^ 2).sum / (2 * siteScalar θ "noise_scale" ^ 2))
      ≤ usualPrior kind m μ os b θ - usualPrior kind m μ os b (bump θ n j h) := by
  obtain ⟨hz, hN, hL, hmax⟩ := hθ
  have hz' : UsualSizes kind cs (usedEffects kind m) (bump θ n j h) := bump_sizes hz
  have hσ' : siteScalar (bump θ n j h) "noise_scale" = siteScalar θ "noise_scale" := by
    unfold siteScalar
    rw [bump_ne hn]
  obtain ⟨L', hL'⟩ := usual_defined_at hU hT hfit hw hs hcs hz hz' hL
  have hle := hmax _ L' hz' (by rw [hσ']; exact hN) hL'
  obtain ⟨s', cs', hs', hcs', hF⟩ := usual_formula_any hU hT hfit hb
  rw [hs] at hs'
  cases hs'
  rw [hcs] at hcs'
  cases hcs'
  obtain ⟨μ1, hμ1, h1⟩ := hF _ ns scale os θ L hz.trend hL
  obtain ⟨μ2, hμ2, h2⟩ := hF _ ns scale os _ L' hz'.trend hL'
  rw [hμ] at hμ1 hμ2
  cases hμ1
  cases hμ2
  have e1 : L = usualPrior kind m μ os b θ + halfNormalLP ns (siteScalar θ "noise_scale")
      + (y.rows.map fun row => normalLP (usualMean position kind days s cs y x m θ row.time)
          (siteScalar θ "noise_scale") (row.val c)).sum := h1
  have e2 : L' = usualPrior kind m μ os b (bump θ n j h)
      + halfNormalLP ns (siteScalar (bump θ n j h) "noise_scale")
      + (y.rows.map fun row => normalLP (usualMean position kind days s cs y x m (bump θ n j h) row.time)
          (siteScalar (bump θ n j h) "noise_scale") (row.val c)).sum := h2
  rw [hσ'] at e2
  simp only [hmean] at e2
  rw [sum_normal_move (fun row : Row String τ ℝ => usualMean position kind days s cs y x m θ row.time)
    (fun row => a row.time) (fun row => row.val c) hσ.ne'] at e2
  unfold residual
  rw [e1, e2] at hle
  linarith

theorem combine_trend (mode : String) (T d v : ℝ) :
    combine mode (T + d) v = combine mode T v + d * (if mode = "additive" then 0 else v) := by
  unfold combine
  split
  · simp
  · ring

theorem combine_value (mode : String) (T v d : ℝ) :
    combine mode T (v + d) = combine mode T v + d * effectGain mode T := by
  unfold combine effectGain
  split
  · simp
  · ring

/-- The mean after a change of the trend. -/
theorem mean_trend {s : PiecewiseState ℝ τ} {cs : List ℝ} {θ θ' : SiteEnv ℝ} {h : ℝ} {a : τ → ℝ}
    (hT : ∀ t, usualTrend days s cs θ' t = usualTrend days s cs θ t + h * a t)
    (hc : ∀ fe ∈ usedEffects kind m, θ' (fe.name ++ "/coefs") = θ (fe.name ++ "/coefs")) (t : τ) :
    usualMean position kind days s cs y x m θ' t
      = usualMean position kind days s cs y x m θ t + h * (trendGain position kind y x m θ t * a t) := by
  unfold usualMean trendGain
  rw [hT]
  have : ((usedEffects kind m).map fun fe =>
      combine (kind fe.name).modeOf (usualTrend days s cs θ t + h * a t)
        (dot ((kind fe.name).features position (firstPosition position y.times) fe.cols t (rowAt x t))
          (θ' (fe.name ++ "/coefs")).data)).sum
      = ((usedEffects kind m).map fun fe =>
        combine (kind fe.name).modeOf (usualTrend days s cs θ t)
          (dot ((kind fe.name).features position (firstPosition position y.times) fe.cols t (rowAt x t))
            (θ (fe.name ++ "/coefs")).data)
        + h * a t * (if (kind fe.name).modeOf = "additive" then 0 else
            dot ((kind fe.name).features position (firstPosition position y.times) fe.cols t (rowAt x t))
              (θ (fe.name ++ "/coefs")).data)).sum := by
    refine congrArg List.sum (List.map_congr_left fun fe hfe => ?_)
    rw [hc fe hfe, combine_trend]
  rw [this, List.sum_map_add, List.sum_map_mul_left]
  ring

/-- **C121**: at a best fit the residuals, each times what one unit of trend adds to the mean, balance
the prior of the offset.  (With additive effects only: the sum of the residuals does.) -/
theorem C121_offset (hU : Usual position compile order days suggest p kind cfg)
    (hT : Training cfg y c X x) (hfit : uniFitData cfg y X = .ok m) {b : ℝ} (hb : p.priorScale = .scalar b)
    (hw : ∀ n ss mode s, kind n = .seasonal ss mode s → waves ss ≠ [])
    {s : PiecewiseState ℝ τ} {cs : List ℝ} (hs : m.trend.st.2 = .piecewise (some s)) (hcs : s.cps = [cs])
    {μ : ℝ} (hμ : s.offsetLoc = [μ]) {ns scale os : ℝ} {N : ℝ → Prop} {θ : SiteEnv ℝ} {L : ℝ}
    (hos : os ≠ 0) (hθ : BestIn kind .normal cs ns scale os N m θ L) (hσ : 0 < siteScalar θ "noise_scale") :
    (y.rows.map fun row => residual position kind days s cs y c x m θ row
        * trendGain position kind y x m θ row.time).sum / siteScalar θ "noise_scale" ^ 2
      = ((θ "offset").data.headD 0 - μ) / os ^ 2 := by
  obtain ⟨o, ho⟩ := hθ.1.trend.1
  have key := slope_zero (A := (y.rows.map fun row => residual position kind days s cs y c x m θ row
      * trendGain position kind y x m θ row.time).sum / siteScalar θ "noise_scale" ^ 2
      - ((θ "offset").data.headD 0 - μ) / os ^ 2)
    (B := (y.rows.map fun row => trendGain position kind y x m θ row.time ^ 2).sum
      / (2 * siteScalar θ "noise_scale" ^ 2) + 1 / (2 * os ^ 2)) one_pos fun h _ => ?_
  · linarith
  · have hb1 : (bump θ "offset" 0 h "offset").data = [o + h] := by
      rw [bump_data, ho]
      simp
    have hmv := best_move hU hT hfit hb hw hs hcs hμ hθ hσ (n := "offset") (by decide) (j := 0) (h := h)
      (a := trendGain position kind y x m θ) fun t => by
        have := mean_trend (position := position) (kind := kind) (y := y) (x := x) (m := m) (days := days) (s := s) (cs := cs)
          (θ := θ) (θ' := bump θ "offset" 0 h) (h := h) (a := fun _ => 1) (fun t => by
            unfold usualTrend
            rw [hb1, bump_ne (by decide), ho]
            simp only [trendAt, List.headD_cons]
            ring) (fun fe _ => bump_ne (coefs_site_ne _ (by decide))) t
        rw [this]
        ring
    have hpr : usualPrior kind m μ os b θ - usualPrior kind m μ os b (bump θ "offset" 0 h)
        = h * (((θ "offset").data.headD 0 - μ) / os ^ 2) + h ^ 2 * (1 / (2 * os ^ 2)) := by
      unfold usualPrior
      rw [hb1, bump_ne (by decide)]
      have : ((usedEffects kind m).map fun fe =>
          ((bump θ "offset" 0 h (fe.name ++ "/coefs")).data.map (kind fe.name).prior).sum)
          = (usedEffects kind m).map fun fe => ((θ (fe.name ++ "/coefs")).data.map (kind fe.name).prior).sum :=
        List.map_congr_left fun fe _ => by rw [bump_ne (coefs_site_ne _ (by decide))]
      rw [this, ho]
      simp only [List.headD_cons, normalLP]
      field_simp
      ring
    rw [hpr] at hmv
    linarith

/-- **C121**: at a best fit the residuals pull at no change of the growth rate by more than the prior
holds against it, `1 / changepoint_prior_scale`, and by exactly that much in the direction of the
change where there is one.  So a changepoint is left unused unless the data insist. -/
theorem C121_changepoints (hU : Usual position compile order days suggest p kind cfg)
    (hT : Training cfg y c X x) (hfit : uniFitData cfg y X = .ok m) {b : ℝ} (hb : p.priorScale = .scalar b)
    (hb0 : 0 < b) (hw : ∀ n ss mode s, kind n = .seasonal ss mode s → waves ss ≠ [])
    {s : PiecewiseState ℝ τ} {cs : List ℝ} (hs : m.trend.st.2 = .piecewise (some s)) (hcs : s.cps = [cs])
    {μ : ℝ} (hμ : s.offsetLoc = [μ]) {ns scale os : ℝ} {N : ℝ → Prop} {θ : SiteEnv ℝ} {L : ℝ}
    (hθ : BestIn kind .normal cs ns scale os N m θ L) (hσ : 0 < siteScalar θ "noise_scale")
    {j : Nat} (hj : j < cs.length) :
    let pull := (y.rows.map fun row => residual position kind days s cs y c x m θ row
        * (trendGain position kind y x m θ row.time * rampEntry (s.time.scaled days row.time) (cs.getD j 0))).sum
          / siteScalar θ "noise_scale" ^ 2
    let δ := (θ "changepoint_coefficients").data.getD j 0
    |pull| ≤ 1 / b ∧ (0 < δ → pull = 1 / b) ∧ (δ < 0 → pull = -(1 / b)) := by
  have hlen : j < (θ "changepoint_coefficients").data.length := by rw [hθ.1.trend.2]; exact hj
  refine slope_abs (B := (y.rows.map fun row => (trendGain position kind y x m θ row.time
      * rampEntry (s.time.scaled days row.time) (cs.getD j 0)) ^ 2).sum
      / (2 * siteScalar θ "noise_scale" ^ 2)) hb0 fun h => ?_
  have hmv := best_move hU hT hfit hb hw hs hcs hμ hθ hσ (n := "changepoint_coefficients") (by decide)
    (j := j) (h := h)
    (a := fun t => trendGain position kind y x m θ t * rampEntry (s.time.scaled days t) (cs.getD j 0)) fun t =>
      mean_trend (position := position) (kind := kind) (y := y) (x := x) (m := m) (days := days) (s := s) (cs := cs)
        (θ := θ) (θ' := bump θ "changepoint_coefficients" j h) (h := h)
        (a := fun t => rampEntry (s.time.scaled days t) (cs.getD j 0)) (fun t => by
          unfold usualTrend
          rw [bump_data, bump_ne (by decide), trendAt_dot, trendAt_dot, dot_modify _ _ _ _ hlen,
            List.getD_eq_getElem _ _ (by simpa using hj), List.getElem_map, List.getD_eq_getElem _ _ hj]
          ring) (fun fe _ => bump_ne (coefs_site_ne _ (by decide))) t
  have hpr : usualPrior kind m μ os b θ - usualPrior kind m μ os b (bump θ "changepoint_coefficients" j h)
      = (|(θ "changepoint_coefficients").data.getD j 0 + h| - |(θ "changepoint_coefficients").data.getD j 0|) / b := by
    unfold usualPrior
    rw [bump_data, bump_ne (by decide), sum_modify _ _ _ _ hlen]
    have : ((usedEffects kind m).map fun fe =>
        ((bump θ "changepoint_coefficients" j h (fe.name ++ "/coefs")).data.map (kind fe.name).prior).sum)
        = (usedEffects kind m).map fun fe => ((θ (fe.name ++ "/coefs")).data.map (kind fe.name).prior).sum :=
      List.map_congr_left fun fe _ => by rw [bump_ne (coefs_site_ne _ (by decide))]
    rw [this]
    simp only [laplaceLP, sub_zero]
    ring
  rw [hpr] at hmv
  exact hmv

/-- **C121**: at a best fit the residuals, each times what the `j`-th coefficient of an effect acts on
at that date (the feature, times the trend for multiplicative effects), balance the normal prior of
the coefficient. -/
theorem C121_effect (hU : Usual position compile order days suggest p kind cfg)
    (hT : Training cfg y c X x) (hfit : uniFitData cfg y X = .ok m) {b : ℝ} (hb : p.priorScale = .scalar b)
    (hw : ∀ n ss mode s, kind n = .seasonal ss mode s → waves ss ≠ [])
    {s : PiecewiseState ℝ τ} {cs : List ℝ} (hs : m.trend.st.2 = .piecewise (some s)) (hcs : s.cps = [cs])
    {μ : ℝ} (hμ : s.offsetLoc = [μ]) {ns scale os : ℝ} {N : ℝ → Prop} {θ : SiteEnv ℝ} {L : ℝ}
    (hθ : BestIn kind .normal cs ns scale os N m θ L) (hσ : 0 < siteScalar θ "noise_scale")
    {fe} (hfe : fe ∈ usedEffects kind m) {r : ℝ} (hr : r ≠ 0) (hpr : (kind fe.name).prior = normalLP 0 r)
    {j : Nat} (hj : j < (kind fe.name).size fe.cols) :
    (y.rows.map fun row => residual position kind days s cs y c x m θ row
        * (effectGain (kind fe.name).modeOf (usualTrend days s cs θ row.time)
          * ((kind fe.name).features position (firstPosition position y.times) fe.cols row.time
              (rowAt x row.time)).getD j 0)).sum / siteScalar θ "noise_scale" ^ 2
      = (θ (fe.name ++ "/coefs")).data.getD j 0 / r ^ 2 := by
  have hlen : j < (θ (fe.name ++ "/coefs")).data.length := by rw [hθ.1.coefs fe hfe]; exact hj
  have hn : ((usedEffects kind m).map FittedEffect.name).Nodup :=
    (usual_names hU hfit).1.sublist (List.filter_sublist.map _)
  have hother : ∀ h, ∀ e ∈ (usedEffects kind m).filter (fun e => e.name ≠ fe.name),
      bump θ (fe.name ++ "/coefs") j h (e.name ++ "/coefs") = θ (e.name ++ "/coefs") := by
    intro h e he
    have hne : e.name ≠ fe.name := by simpa using (List.mem_filter.1 he).2
    refine bump_ne fun h' => hne ?_
    simpa using h'
  have key := slope_zero (A := (y.rows.map fun row => residual position kind days s cs y c x m θ row
        * (effectGain (kind fe.name).modeOf (usualTrend days s cs θ row.time)
          * ((kind fe.name).features position (firstPosition position y.times) fe.cols row.time
              (rowAt x row.time)).getD j 0)).sum / siteScalar θ "noise_scale" ^ 2
      - (θ (fe.name ++ "/coefs")).data.getD j 0 / r ^ 2)
    (B := (y.rows.map fun row => (effectGain (kind fe.name).modeOf (usualTrend days s cs θ row.time)
          * ((kind fe.name).features position (firstPosition position y.times) fe.cols row.time
              (rowAt x row.time)).getD j 0) ^ 2).sum
      / (2 * siteScalar θ "noise_scale" ^ 2) + 1 / (2 * r ^ 2)) one_pos fun h _ => ?_
  · linarith
  · have hmv := best_move hU hT hfit hb hw hs hcs hμ hθ hσ (n := fe.name ++ "/coefs")
      (coefs_site_ne _ (by decide)).symm (j := j) (h := h)
      (a := fun t => effectGain (kind fe.name).modeOf (usualTrend days s cs θ t)
          * ((kind fe.name).features position (firstPosition position y.times) fe.cols t (rowAt x t)).getD j 0)
      fun t => by
        have hTr : usualTrend days s cs (bump θ (fe.name ++ "/coefs") j h) t = usualTrend days s cs θ t := by
          unfold usualTrend
          rw [bump_ne (coefs_site_ne _ (by decide)).symm, bump_ne (coefs_site_ne _ (by decide)).symm]
        unfold usualMean
        rw [hTr, sum_apart FittedEffect.name _ fe hn hfe, sum_apart FittedEffect.name
          (fun fe => combine (kind fe.name).modeOf (usualTrend days s cs θ t)
            (dot ((kind fe.name).features position (firstPosition position y.times) fe.cols t (rowAt x t))
              (θ (fe.name ++ "/coefs")).data)) fe hn hfe]
        have : (((usedEffects kind m).filter fun e => e.name ≠ fe.name).map fun e =>
            combine (kind e.name).modeOf (usualTrend days s cs θ t)
              (dot ((kind e.name).features position (firstPosition position y.times) e.cols t (rowAt x t))
                (bump θ (fe.name ++ "/coefs") j h (e.name ++ "/coefs")).data))
            = ((usedEffects kind m).filter fun e => e.name ≠ fe.name).map fun e =>
              combine (kind e.name).modeOf (usualTrend days s cs θ t)
                (dot ((kind e.name).features position (firstPosition position y.times) e.cols t (rowAt x t))
                  (θ (e.name ++ "/coefs")).data) :=
          List.map_congr_left fun e he => by rw [hother h e he]
        rw [this, bump_data, dot_modify _ _ _ _ hlen, combine_value]
        ring
    have hprior : usualPrior kind m μ os b θ - usualPrior kind m μ os b (bump θ (fe.name ++ "/coefs") j h)
        = h * ((θ (fe.name ++ "/coefs")).data.getD j 0 / r ^ 2) + h ^ 2 * (1 / (2 * r ^ 2)) := by
      unfold usualPrior
      rw [bump_ne (coefs_site_ne _ (by decide)).symm, bump_ne (coefs_site_ne _ (by decide)).symm,
        sum_apart FittedEffect.name (fun e => ((θ (e.name ++ "/coefs")).data.map (kind e.name).prior).sum) fe hn hfe,
        sum_apart FittedEffect.name
          (fun e => ((bump θ (fe.name ++ "/coefs") j h (e.name ++ "/coefs")).data.map (kind e.name).prior).sum) fe hn hfe]
      have : (((usedEffects kind m).filter fun e => e.name ≠ fe.name).map fun e =>
          ((bump θ (fe.name ++ "/coefs") j h (e.name ++ "/coefs")).data.map (kind e.name).prior).sum)
          = ((usedEffects kind m).filter fun e => e.name ≠ fe.name).map fun e =>
            ((θ (e.name ++ "/coefs")).data.map (kind e.name).prior).sum :=
        List.map_congr_left fun e he => by rw [hother h e he]
      rw [this, bump_data, sum_modify _ _ _ _ hlen, hpr]
      simp only [normalLP]
      field_simp
      ring
    rw [hprior] at hmv
    linarith

theorem sum_normalLP_rows {α : Type} (M v : α → ℝ) (σ : ℝ) : ∀ l : List α,
    (l.map fun r => normalLP (M r) σ (v r)).sum
      = -((l.map fun r => (v r - M r) ^ 2).sum / (2 * σ ^ 2)) - l.length * Real.log σ
        - l.length * (Real.log (2 * Real.pi) / 2)
  | [] => by simp
  | r :: l => by
    simp only [List.map_cons, List.sum_cons, sum_normalLP_rows M v σ l, List.length_cons]
    unfold normalLP
    push_cast
    ring

/-- The maximum of the log density in the noise level. -/
theorem noise_balance {n S ns σ : ℝ} (hns : 0 < ns) (hσ : 0 < σ)
    (h : ∀ u : ℝ, 0 < u → -(u ^ 2 / (2 * ns ^ 2)) - n * Real.log u - S / (2 * u ^ 2)
      ≤ -(σ ^ 2 / (2 * ns ^ 2)) - n * Real.log σ - S / (2 * σ ^ 2)) :
    S = n * σ ^ 2 + σ ^ 4 / ns ^ 2 := by
  have hmax : IsLocalMax (fun u : ℝ => -(u ^ 2 / (2 * ns ^ 2)) - n * Real.log u - S / (2 * u ^ 2)) σ := by
    filter_upwards [lt_mem_nhds hσ] with u hu using h u hu
  have hd : HasDerivAt (fun u : ℝ => -(u ^ 2 / (2 * ns ^ 2)) - n * Real.log u - S / (2 * u ^ 2))
      (-(2 * σ / (2 * ns ^ 2)) - n * σ⁻¹ - (0 * (2 * σ ^ 2) - S * (2 * (2 * σ))) / (2 * σ ^ 2) ^ 2) σ := by
    have h1 : HasDerivAt (fun u : ℝ => u ^ 2) (2 * σ) σ := by simpa using hasDerivAt_pow 2 σ
    have h2 := (Real.hasDerivAt_log hσ.ne').const_mul n
    have h3 : HasDerivAt (fun u : ℝ => S / (2 * u ^ 2)) _ σ :=
      (hasDerivAt_const σ S).div (h1.const_mul 2) (by positivity)
    exact ((h1.div_const (2 * ns ^ 2)).neg.sub h2).sub h3
  have := hmax.hasDerivAt_eq_zero hd
  field_simp at this ⊢
  nlinarith

/-- **C121**: the noise level of a best fit follows from the residuals, and is smaller than the root
mean squared error of the fit. -/
theorem C121_noise (hU : Usual position compile order days suggest p kind cfg)
    (hT : Training cfg y c X x) (hfit : uniFitData cfg y X = .ok m) {b : ℝ} (hb : p.priorScale = .scalar b)
    (hw : ∀ n ss mode s, kind n = .seasonal ss mode s → waves ss ≠ [])
    {s : PiecewiseState ℝ τ} {cs : List ℝ} (hs : m.trend.st.2 = .piecewise (some s)) (hcs : s.cps = [cs])
    {ns scale os : ℝ} (hns : 0 < ns) {θ : SiteEnv ℝ} (hθ : BestOfAll kind .normal cs ns scale os m θ) :
    let n : ℝ := y.rows.length
    let σ := siteScalar θ "noise_scale"
    let sse := (y.rows.map fun row => residual position kind days s cs y c x m θ row ^ 2).sum
    sse = n * σ ^ 2 + σ ^ 4 / ns ^ 2 ∧
      σ ^ 2 = ns ^ 2 / 2 * (Real.sqrt (n ^ 2 + 4 * sse / ns ^ 2) - n) ∧
      σ < Real.sqrt (sse / n) := by
  intro n σ sse
  obtain ⟨hz, hσ, L, hL, hmax⟩ := hθ
  have hn : 0 < n := Nat.cast_pos.2 (List.length_pos_iff.2 hT.some)
  have e1 : sse = n * σ ^ 2 + σ ^ 4 / ns ^ 2 := by
    refine noise_balance hns hσ fun u hu => ?_
    obtain ⟨L', hL'⟩ := usual_defined_at hU hT hfit hw hs hcs hz (withNoise_sizes hz u) hL
    have hu' : siteScalar (withNoise θ u) "noise_scale" = u := rfl
    have hle := hmax _ L' (withNoise_sizes hz u) (by rw [hu']; exact hu) hL'
    obtain ⟨s', cs', hs', hcs', hF⟩ := usual_formula_any hU hT hfit hb
    rw [hs] at hs'
    cases hs'
    rw [hcs] at hcs'
    cases hcs'
    obtain ⟨μ1, hμ1, h1⟩ := hF _ ns scale os θ L hz.trend hL
    obtain ⟨μ2, hμ2, h2⟩ := hF _ ns scale os _ L' (withNoise_sizes hz u).trend hL'
    rw [hμ1] at hμ2
    cases hμ2
    have hsite : ∀ fe ∈ usedEffects kind m, withNoise θ u (fe.name ++ "/coefs") = θ (fe.name ++ "/coefs") :=
      fun fe _ => if_neg (coefs_site_ne _ (by decide))
    have hp : usualPrior kind m μ1 os b (withNoise θ u) = usualPrior kind m μ1 os b θ := by
      have : ((usedEffects kind m).map fun fe =>
          ((withNoise θ u (fe.name ++ "/coefs")).data.map (kind fe.name).prior).sum)
          = (usedEffects kind m).map fun fe => ((θ (fe.name ++ "/coefs")).data.map (kind fe.name).prior).sum :=
        List.map_congr_left fun fe hfe => by rw [hsite fe hfe]
      unfold usualPrior
      rw [this]
      rfl
    have hm : ∀ t, usualMean position kind days s cs y x m (withNoise θ u) t
        = usualMean position kind days s cs y x m θ t := by
      intro t
      have := mean_trend (position := position) (kind := kind) (y := y) (x := x) (m := m) (days := days) (s := s)
        (cs := cs) (θ := θ) (θ' := withNoise θ u) (h := 0) (a := fun _ => 0) (fun t => by
          rw [zero_mul, add_zero]
          rfl) hsite t
      rw [this, zero_mul, add_zero]
    have e1 : L = usualPrior kind m μ1 os b θ + halfNormalLP ns σ
        + (y.rows.map fun row => normalLP (usualMean position kind days s cs y x m θ row.time)
            σ (row.val c)).sum := h1
    have e2 : L' = usualPrior kind m μ1 os b (withNoise θ u) + halfNormalLP ns u
        + (y.rows.map fun row => normalLP (usualMean position kind days s cs y x m (withNoise θ u) row.time)
            u (row.val c)).sum := h2
    rw [hp] at e2
    simp only [hm] at e2
    rw [sum_normalLP_rows] at e1 e2
    rw [e1, e2] at hle
    simp only [halfNormalLP, normalLP, sub_zero] at hle
    have hsse : sse = (y.rows.map fun row =>
      (row.val c - usualMean position kind days s cs y x m θ row.time) ^ 2).sum := rfl
    rw [← hsse] at hle
    linarith
  refine ⟨e1, ?_, ?_⟩
  · have : n ^ 2 + 4 * sse / ns ^ 2 = (2 * σ ^ 2 / ns ^ 2 + n) ^ 2 := by
      rw [e1]
      field_simp
      ring
    rw [this, Real.sqrt_sq (by positivity)]
    field_simp
    ring
  · refine Real.lt_sqrt_of_sq_lt ?_
    rw [lt_div_iff₀ hn, e1]
    have : 0 < σ ^ 4 / ns ^ 2 := by positivity
    linarith

end

/-! ## Examples -/

/-- The fit of a trend to 1, 3, 4. -/
example : ∃ m s cs θ, uniFitData exCfg99 exY85 none = .ok m ∧ m.trend.st.2 = .piecewise (some s) ∧ s.cps = [cs] ∧
    siteScalar θ "noise_scale" < Real.sqrt ((exY85.rows.map fun row =>
      residual id exKind95 (fun n : ℤ => (n : ℝ)) s cs exY85 "y" (Frame.ofIndex [0, 1, 2]) m θ row ^ 2).sum / 3) := by
  obtain ⟨m, hm⟩ := exFits99
  obtain ⟨s, cs, hs, hcs, h⟩ := C99_exists exUsual99 (.inl rfl) exTraining99' hm (b := 2) rfl (by norm_num)
    exWaves98 exContinuous98 exTendsto98 (by rw [exUsed99 exTraining99' hm]; intro fe hfe; cases hfe)
  obtain ⟨θ, hθ⟩ := h (1 / 2) 1 (1 / 10) (by norm_num) (exNoFit99 hm hs hcs)
  have := (C121_noise exUsual99 exTraining99' hm (b := 2) rfl exWaves98 hs hcs (by norm_num) hθ).2.2
  exact ⟨m, s, cs, θ, hm, hs, hcs, by simpa [exY85] using this⟩

/-- The offset and the changes of the growth rate of that fit. -/
example : ∃ m s cs θ μ, uniFitData exCfg99 exY85 none = .ok m ∧ m.trend.st.2 = .piecewise (some s) ∧ s.cps = [cs] ∧
    0 < cs.length ∧ BestOfAll exKind95 .normal cs (1 / 2) 1 (1 / 10) m θ ∧
    (exY85.rows.map fun row => residual id exKind95 (fun n : ℤ => (n : ℝ)) s cs exY85 "y" (Frame.ofIndex [0, 1, 2]) m θ row).sum
      / siteScalar θ "noise_scale" ^ 2 = ((θ "offset").data.headD 0 - μ) / (1 / 10) ^ 2 ∧
    |(exY85.rows.map fun row => residual id exKind95 (fun n : ℤ => (n : ℝ)) s cs exY85 "y" (Frame.ofIndex [0, 1, 2]) m θ row
        * rampEntry (s.time.scaled (fun n : ℤ => (n : ℝ)) row.time) (cs.getD 0 0)).sum
      / siteScalar θ "noise_scale" ^ 2| ≤ 1 / 2 := by
  obtain ⟨m, hm⟩ := exFits99
  obtain ⟨s, cs, hs, hcs, h⟩ := C99_exists exUsual99 (.inl rfl) exTraining99' hm (b := 2) rfl (by norm_num)
    exWaves98 exContinuous98 exTendsto98 (by rw [exUsed99 exTraining99' hm]; intro fe hfe; cases hfe)
  obtain ⟨θ, hθ⟩ := h (1 / 2) 1 (1 / 10) (by norm_num) (exNoFit99 hm hs hcs)
  have hlen : 0 < cs.length := by
    cases exState99 hm hs exFit85
    cases hcs
    simp
  obtain ⟨L, hL, hmax⟩ := hθ.2.2
  have hB : BestIn exKind95 .normal cs (1 / 2) 1 (1 / 10) (0 < ·) m θ L := ⟨hθ.1, hθ.2.1, hL, hmax⟩
  obtain ⟨s', cs', hs', hcs', hF⟩ := usual_formula_any exUsual99 exTraining99' hm (b := 2) rfl
  rw [hs] at hs'
  cases hs'
  rw [hcs] at hcs'
  cases hcs'
  obtain ⟨μ, hμ, -⟩ := hF _ _ _ _ _ _ hθ.1.trend hL
  have hg : ∀ t, trendGain id exKind95 exY85 (Frame.ofIndex [0, 1, 2]) m θ t = 1 := by
    intro t
    unfold trendGain
    rw [exUsed99 exTraining99' hm]
    simp
  have h1 := C121_offset exUsual99 exTraining99' hm (b := 2) rfl exWaves98 hs hcs hμ (by norm_num) hB hθ.2.1
  have h2 := (C121_changepoints exUsual99 exTraining99' hm (b := 2) rfl (by norm_num) exWaves98 hs hcs hμ hB hθ.2.1
    hlen).1
  simp only [hg, mul_one] at h1
  simp only [hg, one_mul] at h2
  exact ⟨m, s, cs, θ, μ, hm, hs, hcs, hlen, hθ, h1, h2⟩

/-- With a multiplicative regression on three columns and a given noise level. -/
example : ∃ m s cs fe θ L μ, uniFitData exCfg95 exY85 (some exX97) = .ok m ∧
    m.trend.st.2 = .piecewise (some s) ∧ s.cps = [cs] ∧ s.offsetLoc = [μ] ∧ fe ∈ usedEffects exKind95 m ∧
    BestIn (rescaled exKind95 fe.name 10) .normal cs (1 / 2) 1 (1 / 10) (· = 1) m θ L ∧
    (exY85.rows.map fun row => residual id (rescaled exKind95 fe.name 10) (fun n : ℤ => (n : ℝ)) s cs exY85 "y" exX97 m θ row
        * (usualTrend (fun n : ℤ => (n : ℝ)) s cs θ row.time
          * (((rescaled exKind95 fe.name 10) fe.name).features id (firstPosition id exY85.times) fe.cols row.time
              (rowAt exX97 row.time)).getD 1 0)).sum
      = (θ (fe.name ++ "/coefs")).data.getD 1 0 / 100 := by
  obtain ⟨m, s, cs, hm, hs, hcs, -⟩ := exBest98
  obtain ⟨fe, hfe, hn, hc, -⟩ := exCols97 hm
  have hk : exKind95 fe.name = .linear "multiplicative" (normalLP 0 1) := by
    rw [hn]
    rfl
  have hu : fe ∈ usedEffects exKind95 m := List.mem_filter.2 ⟨hfe, by rw [hk, hc]; rfl⟩
  obtain ⟨θ, L, hθ⟩ := bestIn_exists (rescaled_usual exUsual95 fe.name 10) (.inl rfl) exTraining97 hm (b := 2) rfl (by norm_num)
      (rescaled_waves exWaves98 _ _) (fun n => (exRescaled101 _ (by norm_num) n).1)
      (fun n => (exRescaled101 _ (by norm_num) n).2) hs hcs (1 / 2) 1 1 (os := 1 / 10) (by norm_num)
  have hz := (rescaled_sizes fe.name 10).1 hθ.1
  obtain ⟨s', cs', hs', hcs', hF⟩ := usual_formula_any (rescaled_usual exUsual95 fe.name 10) exTraining97 hm (b := 2) rfl
  rw [hs] at hs'
  cases hs'
  rw [hcs] at hcs'
  cases hcs'
  obtain ⟨μ, hμ, -⟩ := hF _ _ _ _ _ _ hz.trend hθ.2.2.1
  have hσ : siteScalar θ "noise_scale" = 1 := hθ.2.1
  have hk' : rescaled exKind95 fe.name 10 fe.name = .linear "multiplicative" (normalLP 0 10) := by
    rw [rescaled, if_pos rfl, hk]
    rfl
  have := C121_effect (rescaled_usual exUsual95 fe.name 10) exTraining97 hm (b := 2) rfl (rescaled_waves exWaves98 _ _)
    hs hcs hμ hθ (by rw [hσ]; norm_num) (fe := fe) (by rw [rescaled_used]; exact hu) (r := 10) (by norm_num)
    (by rw [hk']; rfl) (j := 1) (by rw [hk', hc]; simp [EffectKind.size])
  refine ⟨m, s, cs, fe, θ, L, μ, hm, hs, hcs, hμ, hu, hθ, ?_⟩
  rw [hσ] at this
  have e : (rescaled exKind95 fe.name 10 fe.name).modeOf = "multiplicative" := by rw [hk']; rfl
  rw [e] at this
  simp only [effectGain, if_neg (by decide : ¬ "multiplicative" = "additive")] at this
  rw [one_pow, div_one] at this
  rw [this]
  norm_num

end PV
