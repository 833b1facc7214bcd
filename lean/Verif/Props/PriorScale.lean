import Verif.Props.BestNoise
import Verif.Lemmas.NegBinomial
import Verif.Props.Positive

/-!
# C101: the prior scales regularise

Maximum a posteriori inference with a smaller prior scale gives smaller coefficients, and the
coefficients vanish with the scale.
-/

set_option linter.unusedSectionVars false

namespace PV
open Tensor

/-! ## Two objectives -/

/-- If `a` maximises `R - k g` and `a'` maximises `R - k' g` with less weight `k' < k` on the penalty
`g`, then `g a ≤ g a'` and `R a ≤ R a'`. -/
theorem penalty_monotone {α : Type} {R g : α → ℝ} {k k' : ℝ} (hk : k' < k) (hk' : 0 ≤ k') {a a' : α}
    (h : R a' - k * g a' ≤ R a - k * g a) (h' : R a - k' * g a ≤ R a' - k' * g a') :
    g a ≤ g a' ∧ R a ≤ R a' := by
  have h1 : (k - k') * g a ≤ (k - k') * g a' := by linarith
  have h2 : g a ≤ g a' := le_of_mul_le_mul_left h1 (by linarith)
  exact ⟨h2, by nlinarith⟩

theorem sum_normalLP (s : ℝ) : ∀ l : List ℝ, (l.map (normalLP 0 s)).sum
    = -(1 / (2 * s ^ 2) * (l.map (· ^ 2)).sum) + l.length * (-Real.log s - Real.log (2 * Real.pi) / 2)
  | [] => by simp
  | a :: l => by
    simp only [List.map_cons, List.sum_cons, sum_normalLP s l, List.length_cons, normalLP]
    push_cast
    ring

theorem sum_laplaceLP (b : ℝ) : ∀ l : List ℝ, (l.map (laplaceLP 0 b)).sum
    = -(1 / b * (l.map (|·|)).sum) + l.length * (-Real.log (2 * b))
  | [] => by simp
  | a :: l => by
    simp only [List.map_cons, List.sum_cons, sum_laplaceLP b l, List.length_cons, laplaceLP, sub_zero]
    push_cast
    ring

/-- One effect apart. -/
theorem sum_apart {α : Type} (nm : α → String) (f : α → ℝ) (a : α) : ∀ {l : List α}, (l.map nm).Nodup → a ∈ l →
    (l.map f).sum = ((l.filter fun e => nm e ≠ nm a).map f).sum + f a
  | [], _, h => by cases h
  | e :: l, hn, h => by
    rw [List.map_cons, List.nodup_cons] at hn
    rcases List.mem_cons.1 h with rfl | h
    · have : l.filter (fun e => nm e ≠ nm a) = l := by
        rw [List.filter_eq_self]
        intro e he
        exact decide_eq_true fun hc => hn.1 (hc ▸ List.mem_map_of_mem he)
      rw [List.filter_cons_of_neg (by simp), this]
      simp [add_comm]
    · have hne : nm e ≠ nm a := fun hc => hn.1 (hc ▸ List.mem_map_of_mem h)
      rw [List.filter_cons_of_pos (by simpa using hne)]
      simp only [List.map_cons, List.sum_cons, sum_apart nm f a hn.2 h]
      ring

/-! ## Specification -/

/-- The effect with the prior `Normal(0, s)`. -/
noncomputable def EffectKind.withScale (s : ℝ) : EffectKind → EffectKind
  | .seasonal ss mode _ => .seasonal ss mode s
  | .linear mode _ => .linear mode (normalLP 0 s)

/-- The effect called `n₀` gets the prior `Normal(0, s)`. -/
noncomputable def rescaled (kind : String → EffectKind) (n₀ : String) (s : ℝ) : String → EffectKind :=
  fun n => if n = n₀ then (kind n).withScale s else kind n

section
variable {τ : Type} [LinearOrder τ]

/-- Maximum a posteriori: no parameters of the right sizes with an admissible noise level are more
probable. -/
def BestIn (kind : String → EffectKind) (lik : Likelihood) (cs : List ℝ) (ns scale os : ℝ) (N : ℝ → Prop)
    (m : UniFit (UsualAttrs τ) (Scale ℝ) τ ℝ (AnyData ℝ) ℝ) (θ : SiteEnv ℝ) (L : ℝ) : Prop :=
  UsualSizes kind cs (usedEffects kind m) θ ∧ N (siteScalar θ "noise_scale") ∧
    usualDensity kind lik ns scale os m θ = .ok L ∧
    ∀ θ₂ L₂, UsualSizes kind cs (usedEffects kind m) θ₂ → N (siteScalar θ₂ "noise_scale") →
      usualDensity kind lik ns scale os m θ₂ = .ok L₂ → L₂ ≤ L

variable {position : τ → ℤ} {compile : String → PyM (String → Bool)}
  {order : List String → List String} {days : τ → ℝ}
  {suggest : List ℝ → Tensor ℝ → PyM (List ℝ × List ℝ)}
  {p p' : PiecewiseParams ℝ τ} {kind : String → EffectKind}
  {cfg cfg' : UniConfig (UsualAttrs τ) (Scale ℝ) τ ℝ (AnyData ℝ) ℝ} {y : Frame String τ ℝ} {c : String}
  {X : Option (Frame String τ ℝ)} {x : Frame String τ ℝ}
  {m m' : UniFit (UsualAttrs τ) (Scale ℝ) τ ℝ (AnyData ℝ) ℝ}

/-! ## Effects -/

theorem withScale_same (s : ℝ) (k : EffectKind) :
    (k.withScale s).effect position compile order = k.effect position compile order ∧
      (k.withScale s).used = k.used ∧ (∀ cols, (k.withScale s).size cols = k.size cols) ∧
      (k.withScale s).modeOf = k.modeOf ∧
      (∀ p0 cols t r, (k.withScale s).features position p0 cols t r = k.features position p0 cols t r) ∧
      (k.withScale s).prior = normalLP 0 s := by
  cases k <;> exact ⟨rfl, rfl, fun _ => rfl, rfl, fun _ _ _ _ => rfl, rfl⟩

theorem rescaled_same (n₀ : String) (s : ℝ) (n : String) :
    (rescaled kind n₀ s n).effect position compile order = (kind n).effect position compile order ∧
      (rescaled kind n₀ s n).used = (kind n).used ∧
      (∀ cols, (rescaled kind n₀ s n).size cols = (kind n).size cols) ∧
      (rescaled kind n₀ s n).modeOf = (kind n).modeOf ∧
      ∀ p0 cols t r, (rescaled kind n₀ s n).features position p0 cols t r
        = (kind n).features position p0 cols t r := by
  unfold rescaled
  split
  · obtain ⟨h1, h2, h3, h4, h5, -⟩ := withScale_same (position := position) (compile := compile)
      (order := order) s (kind n)
    exact ⟨h1, h2, h3, h4, h5⟩
  · exact ⟨rfl, rfl, fun _ => rfl, rfl, fun _ _ _ _ => rfl⟩

theorem rescaled_usual (hU : Usual position compile order days suggest p kind cfg) (n₀ : String) (s : ℝ) :
    Usual position compile order days suggest p (rescaled kind n₀ s) cfg where
  trend := hU.trend
  squeeze := hU.squeeze
  interval := hU.interval
  range := hU.range
  effects := fun e he => (hU.effects e he).trans (rescaled_same n₀ s e.name).1.symm
  default := hU.default.trans (rescaled_same n₀ s _).1.symm
  nodup := hU.nodup
  reserved := hU.reserved
  notTrend := hU.notTrend

theorem rescaled_used (n₀ : String) (s : ℝ) : usedEffects (rescaled kind n₀ s) m = usedEffects kind m := by
  unfold usedEffects
  refine List.filter_congr fun fe _ => ?_
  rw [(rescaled_same (position := fun _ : τ => 0) (compile := fun _ => .error .keyError) (order := id) n₀ s fe.name).2.1]

theorem rescaled_sizes {cs : List ℝ} {θ : SiteEnv ℝ} (n₀ : String) (s : ℝ) :
    UsualSizes (rescaled kind n₀ s) cs (usedEffects (rescaled kind n₀ s) m) θ ↔
      UsualSizes kind cs (usedEffects kind m) θ := by
  have h : ∀ (n : String) cols, (rescaled kind n₀ s n).size cols = (kind n).size cols :=
    fun n => (rescaled_same (position := fun _ : τ => 0) (compile := fun _ => .error .keyError) (order := id) n₀ s n).2.2.1
  rw [rescaled_used]
  constructor
  · rintro ⟨h1, h2, h3⟩
    exact ⟨h1, h2, fun fe hfe => (h3 fe hfe).trans (h _ _)⟩
  · rintro ⟨h1, h2, h3⟩
    exact ⟨h1, h2, fun fe hfe => (h3 fe hfe).trans (h _ _).symm⟩

theorem rescaled_waves (hw : ∀ n ss mode s, kind n = .seasonal ss mode s → waves ss ≠ []) (n₀ : String) (s₀ : ℝ) :
    ∀ n ss mode s, rescaled kind n₀ s₀ n = .seasonal ss mode s → waves ss ≠ [] := by
  intro n ss mode s h
  unfold rescaled at h
  split at h
  · cases hk : kind n with
    | seasonal ss' mode' s' =>
      rw [hk] at h
      cases h
      exact hw n _ _ _ hk
    | linear mode' q =>
      rw [hk] at h
      cases h
  · exact hw n _ _ _ h

/-- The log density without the prior of the effect called `n₀`. -/
noncomputable def restOf (position : τ → ℤ) (kind : String → EffectKind) (days : τ → ℝ) (b : ℝ) (n₀ : String)
    (st : PiecewiseState ℝ τ) (cs : List ℝ) (y : Frame String τ ℝ) (c : String) (x : Frame String τ ℝ)
    (m : UniFit (UsualAttrs τ) (Scale ℝ) τ ℝ (AnyData ℝ) ℝ) (lik : Likelihood) (ns scale os : ℝ) (θ : SiteEnv ℝ) : ℝ :=
  normalLP (st.offsetLoc.headD 0) os ((θ "offset").data.headD 0)
    + ((θ "changepoint_coefficients").data.map (laplaceLP 0 b)).sum
    + (((usedEffects kind m).filter fun fe => fe.name ≠ n₀).map fun fe =>
        ((θ (fe.name ++ "/coefs")).data.map (kind fe.name).prior).sum).sum
    + halfNormalLP ns (siteScalar θ "noise_scale")
    + (y.rows.map fun row => obsLog lik (siteScalar θ "noise_scale") scale
        (usualTrend days st cs θ row.time + ((usedEffects kind m).map fun fe =>
          combine (kind fe.name).modeOf (usualTrend days st cs θ row.time)
            (dot ((kind fe.name).features position (firstPosition position y.times) fe.cols row.time
              (rowAt x row.time)) (θ (fe.name ++ "/coefs")).data)).sum)
        (row.val c)).sum

theorem effect_split (hU : Usual position compile order days suggest p kind cfg)
    (hT : Training cfg y c X x) (hfit : uniFitData cfg y X = .ok m) {b : ℝ} (hb : p.priorScale = .scalar b)
    {st : PiecewiseState ℝ τ} {cs : List ℝ} (hs : m.trend.st.2 = .piecewise (some st)) (hcs : st.cps = [cs])
    {fe} (hfe : fe ∈ usedEffects kind m) (s : ℝ) {lik : Likelihood} {ns scale os : ℝ} {θ : SiteEnv ℝ} {L : ℝ}
    (hθ : SingleSites cs θ) (hL : usualDensity (rescaled kind fe.name s) lik ns scale os m θ = .ok L) :
    L = restOf position kind days b fe.name st cs y c x m lik ns scale os θ
      + ((θ (fe.name ++ "/coefs")).data.map (normalLP 0 s)).sum := by
  obtain ⟨s', cs', hs', hcs', hF⟩ := usual_formula_any (rescaled_usual hU fe.name s) hT hfit hb
  rw [hs] at hs'
  cases hs'
  rw [hcs] at hcs'
  cases hcs'
  obtain ⟨μ, hμ, h⟩ := hF lik ns scale os θ L hθ hL
  rw [h, rescaled_used]
  have hn : ((usedEffects kind m).map FittedEffect.name).Nodup :=
    (usual_names hU hfit).1.sublist (List.filter_sublist.map _)
  rw [sum_apart FittedEffect.name _ fe hn hfe]
  have e2 : (((usedEffects kind m).filter fun e => e.name ≠ fe.name).map fun e =>
        ((θ (e.name ++ "/coefs")).data.map (rescaled kind fe.name s e.name).prior).sum).sum
      = (((usedEffects kind m).filter fun e => e.name ≠ fe.name).map fun e =>
        ((θ (e.name ++ "/coefs")).data.map (kind e.name).prior).sum).sum := by
    refine congrArg List.sum (List.map_congr_left fun e he => ?_)
    have : e.name ≠ fe.name := by simpa using (List.mem_filter.1 he).2
    rw [rescaled, if_neg this]
  have e3 : (rescaled kind fe.name s fe.name).prior = normalLP 0 s := by
    rw [rescaled, if_pos rfl]
    exact (withScale_same (position := position) (compile := compile) (order := order) s _).2.2.2.2.2
  have e4 : ∀ n, (rescaled kind fe.name s n).modeOf = (kind n).modeOf := fun n =>
    (rescaled_same (position := position) (compile := compile) (order := order) _ s n).2.2.2.1
  have e5 : ∀ n p0 cols t r, (rescaled kind fe.name s n).features position p0 cols t r
      = (kind n).features position p0 cols t r := fun n =>
    (rescaled_same (position := position) (compile := compile) (order := order) _ s n).2.2.2.2
  rw [e2, e3]
  simp only [e4, e5]
  unfold restOf
  rw [hμ, List.headD_cons]
  ring

/-- **C101**: of two best fits of the same data that differ in the prior scale of one effect, the one
with the smaller scale has the smaller coefficients for that effect (sum of squares), and fits the data
and the other priors no better.  Any likelihood, any modes, any admissible noise levels. -/
theorem C101_effect (hU : Usual position compile order days suggest p kind cfg)
    (hT : Training cfg y c X x) (hfit : uniFitData cfg y X = .ok m) {b : ℝ} (hb : p.priorScale = .scalar b)
    (hw : ∀ n ss mode s, kind n = .seasonal ss mode s → waves ss ≠ [])
    {st : PiecewiseState ℝ τ} {cs : List ℝ} (hs : m.trend.st.2 = .piecewise (some st)) (hcs : st.cps = [cs])
    {fe} (hfe : fe ∈ usedEffects kind m) {s s' : ℝ} (h0 : 0 < s) (hss : s < s')
    {lik : Likelihood} {ns scale os : ℝ} {N : ℝ → Prop} {θ θ' : SiteEnv ℝ} {L L' : ℝ}
    (hθ : BestIn (rescaled kind fe.name s) lik cs ns scale os N m θ L)
    (hθ' : BestIn (rescaled kind fe.name s') lik cs ns scale os N m θ' L') :
    ((θ (fe.name ++ "/coefs")).data.map (· ^ 2)).sum ≤ ((θ' (fe.name ++ "/coefs")).data.map (· ^ 2)).sum ∧
    L - ((θ (fe.name ++ "/coefs")).data.map (normalLP 0 s)).sum
      ≤ L' - ((θ' (fe.name ++ "/coefs")).data.map (normalLP 0 s')).sum := by
  obtain ⟨hz, hN, hL, hmax⟩ := hθ
  obtain ⟨hz', hN', hL', hmax'⟩ := hθ'
  have hzk := (rescaled_sizes _ _).1 hz
  have hzk' := (rescaled_sizes _ _).1 hz'
  -- each density is defined at the other's best fit
  have hdef : ∀ (r : ℝ) (θ₁ θ₂ : SiteEnv ℝ) (L₁ : ℝ), UsualSizes kind cs (usedEffects kind m) θ₁ →
      UsualSizes kind cs (usedEffects kind m) θ₂ →
      usualDensity (rescaled kind fe.name r) lik ns scale os m θ₁ = .ok L₁ →
      ∃ L₂, usualDensity (rescaled kind fe.name r) lik ns scale os m θ₂ = .ok L₂ := by
    intro r θ₁ θ₂ L₁ h1 h2 hL₁
    obtain ⟨s1, cs1, hs1, hcs1, hD⟩ := usual_defined_of (rescaled_usual hU fe.name r) hT hfit (rescaled_waves hw _ _)
    rw [hs] at hs1
    cases hs1
    rw [hcs] at hcs1
    cases hcs1
    exact hD lik ns scale os θ₁ L₁ h1.trend hL₁ θ₂ ((rescaled_sizes fe.name r).2 h2)
  obtain ⟨A, hA⟩ := hdef s θ θ' L hzk hzk' hL
  obtain ⟨B, hB⟩ := hdef s' θ' θ L' hzk' hzk hL'
  have i1 := hmax θ' A ((rescaled_sizes _ _).2 hzk') hN' hA
  have i2 := hmax' θ B ((rescaled_sizes _ _).2 hzk) hN hB
  have eL := effect_split hU hT hfit hb hs hcs hfe s hzk.trend hL
  have eA := effect_split hU hT hfit hb hs hcs hfe s hzk'.trend hA
  have eL' := effect_split hU hT hfit hb hs hcs hfe s' hzk'.trend hL'
  have eB := effect_split hU hT hfit hb hs hcs hfe s' hzk.trend hB
  have hlen : (θ (fe.name ++ "/coefs")).data.length = (θ' (fe.name ++ "/coefs")).data.length :=
    (hzk.coefs fe hfe).trans (hzk'.coefs fe hfe).symm
  have hk : 1 / (2 * s' ^ 2) < 1 / (2 * s ^ 2) := by
    apply one_div_lt_one_div_of_lt (by positivity)
    have : s ^ 2 < s' ^ 2 := by nlinarith
    linarith
  have key := penalty_monotone (R := restOf position kind days b fe.name st cs y c x m lik ns scale os)
    (g := fun θ : SiteEnv ℝ => ((θ (fe.name ++ "/coefs")).data.map (· ^ 2)).sum) (a := θ) (a' := θ') hk (by positivity)
    (by rw [eL, eA] at i1; rw [sum_normalLP, sum_normalLP, hlen] at i1; linarith)
    (by rw [eL', eB] at i2; rw [sum_normalLP, sum_normalLP, hlen] at i2; linarith)
  refine ⟨key.1, ?_⟩
  rw [eL, eL', add_sub_cancel_right, add_sub_cancel_right]
  exact key.2

/-! ## Changepoints -/

/-- The forecaster with the changepoint prior scale `b`. -/
noncomputable def withTrendScale (days : τ → ℝ) (suggest : List ℝ → Tensor ℝ → PyM (List ℝ × List ℝ))
    (p : PiecewiseParams ℝ τ) (cfg : UniConfig (UsualAttrs τ) (Scale ℝ) τ ℝ (AnyData ℝ) ℝ) (b : ℝ) :
    UniConfig (UsualAttrs τ) (Scale ℝ) τ ℝ (AnyData ℝ) ℝ :=
  { cfg with
    trend := (piecewiseClass days suggest piecewisePredict { p with priorScale := .scalar b }).new.embed
      Attrs.piecewiseEmb AnyData.arrayEmb }

theorem withTrendScale_usual (hU : Usual position compile order days suggest p kind cfg) (b : ℝ) :
    Usual position compile order days suggest { p with priorScale := .scalar b } kind
      (withTrendScale days suggest p cfg b) where
  trend := rfl
  squeeze := hU.squeeze
  interval := hU.interval
  range := hU.range
  effects := hU.effects
  default := hU.default
  nodup := hU.nodup
  reserved := hU.reserved
  notTrend := hU.notTrend

theorem withTrendScale_training (hT : Training cfg y c X x) (b : ℝ) :
    Training (withTrendScale days suggest p cfg b) y c X x :=
  ⟨hT.flat, hT.column, hT.sorted, hT.some, hT.features, hT.dates⟩

theorem withTrendScale_fitted {b b' : ℝ} (hfit : uniFitData (withTrendScale days suggest p cfg b) y X = .ok m)
    (hfit' : uniFitData (withTrendScale days suggest p cfg b') y X = .ok m') : m'.fitted = m.fitted := by
  obtain ⟨yT, x0, x', hyT, htf, hx0, hx, htd, hfe, hdata, hobjs, hya⟩ := uniFitData_ok hfit
  obtain ⟨yT', x0', x'', hyT', htf', hx0', hx', htd', hfe', -⟩ := uniFitData_ok hfit'
  have e0 : x0 = x0' := Except.ok.inj (hx0.symm.trans hx0')
  subst e0
  have e1 : x' = x'' := Except.ok.inj (hx.symm.trans hx')
  subst e1
  have := Except.ok.inj (hfe.symm.trans hfe')
  exact (congrArg Prod.fst this).symm

theorem piecewiseFit_scale {y : Frame String τ ℝ} {b b' : ℝ} {s s' : PiecewiseState ℝ τ}
    (h : piecewiseFit days suggest { p with priorScale := .scalar b } y = .ok s)
    (h' : piecewiseFit days suggest { p with priorScale := .scalar b' } y = .ok s') :
    s'.time = s.time ∧ s'.cps = s.cps ∧ s'.offsetLoc = s.offsetLoc := by
  unfold piecewiseFit at h h'
  have hd : ∀ b : ℝ, detrended { p with priorScale := .scalar b } y = detrended p y := fun b => rfl
  rw [hd] at h h'
  cases h1 : trendTimeFit days y with
  | error e => rw [h1] at h; cases h
  | ok tt =>
    rw [h1] at h h'
    simp only [Bind.bind, Except.bind] at h h'
    cases h2 : setupChangepoints ((unique y.times).map (tt.scaled days)) tt.nSeries p.interval p.range with
    | error e => rw [h2] at h; cases h
    | ok cps =>
      rw [h2] at h h'
      cases h3 : detrended p y with
      | error e => rw [h3] at h; cases h
      | ok y' =>
        rw [h3] at h h'
        simp only at h h'
        cases h4 : y'.seriesToTensor with
        | error e => rw [h4] at h; cases h
        | ok ya =>
          rw [h4] at h h'
          simp only at h h'
          cases h5 : suggest ((unique y'.times).map (tt.scaled days)) ya with
          | error e => rw [h5] at h; cases h
          | ok sg =>
            rw [h5] at h h'
            cases h
            cases h'
            exact ⟨rfl, rfl, rfl⟩

theorem withTrendScale_state {b b' : ℝ} (hfit : uniFitData (withTrendScale days suggest p cfg b) y X = .ok m)
    (hfit' : uniFitData (withTrendScale days suggest p cfg b') y X = .ok m') {s s' : PiecewiseState ℝ τ}
    (hs : m.trend.st.2 = .piecewise (some s)) (hs' : m'.trend.st.2 = .piecewise (some s')) :
    s'.time = s.time ∧ s'.cps = s.cps ∧ s'.offsetLoc = s.offsetLoc := by
  have h := uniFitData_trend hfit
  have h' := uniFitData_trend hfit'
  obtain ⟨e, he, hee⟩ := embed_fit_ok h
  obtain ⟨e', he', hee'⟩ := embed_fit_ok h'
  obtain ⟨-, r, hr, hpf⟩ := piecewise_fit_state he
  obtain ⟨-, r', hr', hpf'⟩ := piecewise_fit_state he'
  have k : r = s := by
    rw [hee] at hs
    simp only [EffectObj.embed, hr] at hs
    cases hs
    rfl
  have k' : r' = s' := by
    rw [hee'] at hs'
    simp only [EffectObj.embed, hr'] at hs'
    cases hs'
    rfl
  subst k k'
  exact piecewiseFit_scale hpf hpf'

/-- The log density without the prior of the changepoint coefficients. -/
noncomputable def restOfTrend (position : τ → ℤ) (kind : String → EffectKind) (days : τ → ℝ)
    (st : PiecewiseState ℝ τ) (cs : List ℝ) (y : Frame String τ ℝ) (c : String) (x : Frame String τ ℝ)
    (m : UniFit (UsualAttrs τ) (Scale ℝ) τ ℝ (AnyData ℝ) ℝ) (lik : Likelihood) (ns scale os : ℝ) (θ : SiteEnv ℝ) : ℝ :=
  normalLP (st.offsetLoc.headD 0) os ((θ "offset").data.headD 0)
    + ((usedEffects kind m).map fun fe =>
        ((θ (fe.name ++ "/coefs")).data.map (kind fe.name).prior).sum).sum
    + halfNormalLP ns (siteScalar θ "noise_scale")
    + (y.rows.map fun row => obsLog lik (siteScalar θ "noise_scale") scale
        (usualTrend days st cs θ row.time + ((usedEffects kind m).map fun fe =>
          combine (kind fe.name).modeOf (usualTrend days st cs θ row.time)
            (dot ((kind fe.name).features position (firstPosition position y.times) fe.cols row.time
              (rowAt x row.time)) (θ (fe.name ++ "/coefs")).data)).sum)
        (row.val c)).sum

theorem restOfTrend_congr {st st' : PiecewiseState ℝ τ} {cs : List ℝ} (h1 : st'.time = st.time)
    (h2 : st'.offsetLoc = st.offsetLoc) (h3 : m'.fitted = m.fitted) {lik : Likelihood} {ns scale os : ℝ} (θ : SiteEnv ℝ) :
    restOfTrend position kind days st' cs y c x m' lik ns scale os θ
      = restOfTrend position kind days st cs y c x m lik ns scale os θ := by
  unfold restOfTrend usualTrend usedEffects
  rw [h1, h2, h3]

theorem trend_split (hU : Usual position compile order days suggest p kind cfg)
    (hT : Training cfg y c X x) (hfit : uniFitData cfg y X = .ok m) {b : ℝ} (hb : p.priorScale = .scalar b)
    {st : PiecewiseState ℝ τ} {cs : List ℝ} (hs : m.trend.st.2 = .piecewise (some st)) (hcs : st.cps = [cs])
    {lik : Likelihood} {ns scale os : ℝ} {θ : SiteEnv ℝ} {L : ℝ}
    (hθ : SingleSites cs θ) (hL : usualDensity kind lik ns scale os m θ = .ok L) :
    L = restOfTrend position kind days st cs y c x m lik ns scale os θ
      + ((θ "changepoint_coefficients").data.map (laplaceLP 0 b)).sum := by
  obtain ⟨s', cs', hs', hcs', hF⟩ := usual_formula_any hU hT hfit hb
  rw [hs] at hs'
  cases hs'
  rw [hcs] at hcs'
  cases hcs'
  obtain ⟨μ, hμ, h⟩ := hF lik ns scale os θ L hθ hL
  rw [h]
  unfold restOfTrend
  rw [hμ, List.headD_cons]
  ring

theorem usual_defined_at (hU : Usual position compile order days suggest p kind cfg)
    (hT : Training cfg y c X x) (hfit : uniFitData cfg y X = .ok m)
    (hw : ∀ n ss mode s, kind n = .seasonal ss mode s → waves ss ≠ [])
    {st : PiecewiseState ℝ τ} {cs : List ℝ} (hs : m.trend.st.2 = .piecewise (some st)) (hcs : st.cps = [cs])
    {lik : Likelihood} {ns scale os : ℝ} {θ₁ θ₂ : SiteEnv ℝ} {L₁ : ℝ}
    (h1 : UsualSizes kind cs (usedEffects kind m) θ₁) (h2 : UsualSizes kind cs (usedEffects kind m) θ₂)
    (hL : usualDensity kind lik ns scale os m θ₁ = .ok L₁) :
    ∃ L₂, usualDensity kind lik ns scale os m θ₂ = .ok L₂ := by
  obtain ⟨s1, cs1, hs1, hcs1, hD⟩ := usual_defined_of hU hT hfit hw
  rw [hs] at hs1
  cases hs1
  rw [hcs] at hcs1
  cases hcs1
  exact hD lik ns scale os θ₁ L₁ h1.trend hL θ₂ h2

/-- **C101**: of two best fits of the same data that differ in the changepoint prior scale, the one with
the smaller scale has the smaller changes of the growth rate (sum of absolute values), and fits the
data and the other priors no better. -/
theorem C101_changepoints (hU : Usual position compile order days suggest p kind cfg)
    (hT : Training cfg y c X x) (hw : ∀ n ss mode s, kind n = .seasonal ss mode s → waves ss ≠ [])
    {b b' : ℝ} (h0 : 0 < b) (hbb : b < b')
    (hfit : uniFitData (withTrendScale days suggest p cfg b) y X = .ok m)
    (hfit' : uniFitData (withTrendScale days suggest p cfg b') y X = .ok m')
    {st : PiecewiseState ℝ τ} {cs : List ℝ} (hs : m.trend.st.2 = .piecewise (some st)) (hcs : st.cps = [cs])
    {lik : Likelihood} {ns scale os : ℝ} {N : ℝ → Prop} {θ θ' : SiteEnv ℝ} {L L' : ℝ}
    (hθ : BestIn kind lik cs ns scale os N m θ L) (hθ' : BestIn kind lik cs ns scale os N m' θ' L') :
    ((θ "changepoint_coefficients").data.map (|·|)).sum
      ≤ ((θ' "changepoint_coefficients").data.map (|·|)).sum ∧
    L - ((θ "changepoint_coefficients").data.map (laplaceLP 0 b)).sum
      ≤ L' - ((θ' "changepoint_coefficients").data.map (laplaceLP 0 b')).sum := by
  obtain ⟨hz, hN, hL, hmax⟩ := hθ
  obtain ⟨hz', hN', hL', hmax'⟩ := hθ'
  obtain ⟨st', cs', hs', hcs', -⟩ := usual_trend (withTrendScale_usual hU b') (withTrendScale_training hT b') hfit'
  obtain ⟨et, ec, eo⟩ := withTrendScale_state hfit hfit' hs hs'
  rw [hcs', hcs] at ec
  cases ec
  have ef := withTrendScale_fitted hfit hfit'
  have eu : usedEffects kind m' = usedEffects kind m := by
    unfold usedEffects
    rw [ef]
  rw [eu] at hz' hmax'
  have hU1 := withTrendScale_usual hU b
  have hU2 := withTrendScale_usual hU b'
  have hT1 := withTrendScale_training (days := days) (suggest := suggest) (p := p) hT b
  have hT2 := withTrendScale_training (days := days) (suggest := suggest) (p := p) hT b'
  obtain ⟨A, hA⟩ := usual_defined_at hU1 hT1 hfit hw hs hcs hz hz' hL
  obtain ⟨B, hB⟩ := usual_defined_at hU2 hT2 hfit' hw hs' hcs' (eu ▸ hz') (eu ▸ hz) hL'
  have i1 := hmax θ' A hz' hN' hA
  have i2 := hmax' θ B hz hN hB
  have eL := trend_split hU1 hT1 hfit rfl hs hcs hz.trend hL
  have eA := trend_split hU1 hT1 hfit rfl hs hcs hz'.trend hA
  have eL' := trend_split hU2 hT2 hfit' rfl hs' hcs' hz'.trend hL'
  have eB := trend_split hU2 hT2 hfit' rfl hs' hcs' hz.trend hB
  rw [restOfTrend_congr et eo ef] at eL' eB
  have hlen : (θ "changepoint_coefficients").data.length = (θ' "changepoint_coefficients").data.length :=
    hz.trend.2.trans hz'.trend.2.symm
  have hk : 1 / b' < 1 / b := one_div_lt_one_div_of_lt h0 hbb
  have key := penalty_monotone (R := restOfTrend position kind days st cs y c x m lik ns scale os)
    (g := fun θ : SiteEnv ℝ => ((θ "changepoint_coefficients").data.map (|·|)).sum) (a := θ) (a' := θ') hk
    (by have := h0.trans hbb; positivity)
    (by rw [eL, eA] at i1; rw [sum_laplaceLP, sum_laplaceLP, hlen] at i1; linarith)
    (by rw [eL', eB] at i2; rw [sum_laplaceLP, sum_laplaceLP, hlen] at i2; linarith)
  refine ⟨key.1, ?_⟩
  rw [eL, eL', add_sub_cancel_right, add_sub_cancel_right]
  exact key.2

/-! ## Vanishing scales -/

theorem sum_map_le_length {f : ℝ → ℝ} {B : ℝ} (h : ∀ v, f v ≤ B) : ∀ l : List ℝ, (l.map f).sum ≤ l.length * B
  | [] => by simp
  | a :: l => by
    simp only [List.map_cons, List.sum_cons, List.length_cons]
    push_cast
    linarith [sum_map_le_length h l, h a]

theorem laplaceLP_le {b : ℝ} (hb : 0 < b) (v : ℝ) : laplaceLP 0 b v ≤ -Real.log (2 * b) := by
  unfold laplaceLP
  have : 0 ≤ |v - 0| / b := by positivity
  linarith

/-- The likelihood of the data is bounded for the noise level `σ`. -/
def BoundedLikelihood (lik : Likelihood) (σ scale : ℝ) (c : String) (rows : List (Row String τ ℝ)) : Prop :=
  ∀ row ∈ rows, ∃ B, ∀ mean, obsLog lik σ scale mean (row.val c) ≤ B

theorem boundedLikelihood_normal (σ scale : ℝ) (c : String) (rows : List (Row String τ ℝ)) :
    BoundedLikelihood .normal σ scale c rows := fun _ _ => ⟨_, fun _ => normalLP_le _ _ _⟩

theorem boundedLikelihood_counts {σ scale : ℝ} (hσ : 0 < σ) (hs : 0 < scale) {c : String}
    {rows : List (Row String τ ℝ)} (h : ∀ row ∈ rows, 0 ≤ row.val c) :
    BoundedLikelihood .negbinomial σ scale c rows := fun row hrow =>
  ⟨0, fun _ => negBinomial2LP_nonpos (mul_pos (C44_positive _).1 hs) (mul_pos hσ hs) (h row hrow)⟩

theorem lik_sum_le {lik : Likelihood} {σ scale : ℝ} {c : String} : ∀ {rows : List (Row String τ ℝ)},
    BoundedLikelihood lik σ scale c rows → ∃ B, ∀ f : τ → ℝ,
      (rows.map fun row => obsLog lik σ scale (f row.time) (row.val c)).sum ≤ B
  | [], _ => ⟨0, fun _ => by simp⟩
  | row :: rows, h => by
    obtain ⟨B, hB⟩ := lik_sum_le (rows := rows) fun r hr => h r (List.mem_cons_of_mem _ hr)
    obtain ⟨C, hC⟩ := h row List.mem_cons_self
    exact ⟨C + B, fun f => by
      rw [List.map_cons, List.sum_cons]
      exact add_le_add (hC _) (hB f)⟩

theorem priors_sum_le {S Y Sc V D K : Type} (hq : ∀ n, ∃ B, ∀ v, (kind n).prior v ≤ B) :
    ∀ l : List (FittedEffect S Y Sc τ V D K), ∃ B, ∀ θ : SiteEnv ℝ,
      (∀ fe ∈ l, (θ (fe.name ++ "/coefs")).data.length = (kind fe.name).size fe.cols) →
      (l.map fun fe => ((θ (fe.name ++ "/coefs")).data.map (kind fe.name).prior).sum).sum ≤ B
  | [] => ⟨0, fun _ _ => by simp⟩
  | fe :: l => by
    obtain ⟨B, hB⟩ := priors_sum_le hq l
    obtain ⟨C, hC⟩ := hq fe.name
    refine ⟨((kind fe.name).size fe.cols : ℝ) * C + B, fun θ hθ => ?_⟩
    rw [List.map_cons, List.sum_cons]
    refine add_le_add ?_ (hB θ fun fe' h' => hθ fe' (List.mem_cons_of_mem _ h'))
    have := sum_map_le_length hC (θ (fe.name ++ "/coefs")).data
    rwa [hθ fe List.mem_cons_self] at this

/-- **C101**: with the noise level given, the coefficients of an effect vanish with its prior scale: the
sum of their squares is at most a constant times the square of the scale. -/
theorem C101_effect_vanishes (hU : Usual position compile order days suggest p kind cfg)
    (hT : Training cfg y c X x) (hfit : uniFitData cfg y X = .ok m) {b : ℝ} (hb : p.priorScale = .scalar b)
    (hb0 : 0 < b) (hw : ∀ n ss mode s, kind n = .seasonal ss mode s → waves ss ≠ [])
    (hq : ∀ n, ∃ B, ∀ v, (kind n).prior v ≤ B)
    {st : PiecewiseState ℝ τ} {cs : List ℝ} (hs : m.trend.st.2 = .piecewise (some st)) (hcs : st.cps = [cs])
    {fe} (hfe : fe ∈ usedEffects kind m) {lik : Likelihood} (ns : ℝ) {scale : ℝ} (os : ℝ) {σ : ℝ}
    (hlik : BoundedLikelihood lik σ scale c y.rows) :
    ∃ C, ∀ s θ L, 0 < s → BestIn (rescaled kind fe.name s) lik cs ns scale os (· = σ) m θ L →
      ((θ (fe.name ++ "/coefs")).data.map (· ^ 2)).sum ≤ s ^ 2 * C := by
  by_cases hex : ∃ s θ L, 0 < s ∧ BestIn (rescaled kind fe.name s) lik cs ns scale os (· = σ) m θ L
  swap
  · exact ⟨0, fun s θ L h0 h => (hex ⟨s, θ, L, h0, h⟩).elim⟩
  obtain ⟨s₀, θ₀, L₀, -, hz₀, hN₀, -⟩ := hex
  rw [rescaled_sizes] at hz₀
  have hn : ((usedEffects kind m).map FittedEffect.name).Nodup :=
    (usual_names hU hfit).1.sublist (List.filter_sublist.map _)
  -- the same parameters without the effect
  let z : SiteEnv ℝ := fun n => if n = fe.name ++ "/coefs" then
    ⟨[(kind fe.name).size fe.cols], List.replicate ((kind fe.name).size fe.cols) 0⟩ else θ₀ n
  have z1 : z "offset" = θ₀ "offset" := if_neg fun h => coefs_site_ne _ (by decide) h.symm
  have z2 : z "changepoint_coefficients" = θ₀ "changepoint_coefficients" :=
    if_neg fun h => coefs_site_ne _ (by decide) h.symm
  have z3 : z "noise_scale" = θ₀ "noise_scale" := if_neg fun h => coefs_site_ne _ (by decide) h.symm
  have z4 : (z (fe.name ++ "/coefs")).data = List.replicate ((kind fe.name).size fe.cols) 0 := by
    simp only [z, if_true]
  have zs : UsualSizes kind cs (usedEffects kind m) z := by
    refine ⟨⟨?_, ?_⟩, ?_, ?_⟩
    · rw [z1]; exact hz₀.trend.1
    · rw [z2]; exact hz₀.trend.2
    · rw [z3]; exact hz₀.noise
    · intro e he
      by_cases h : e.name ++ "/coefs" = fe.name ++ "/coefs"
      · have : e = fe := List.inj_on_of_nodup_map hn he hfe (by simpa using h)
        rw [this, z4, List.length_replicate]
      · simp only [z, if_neg h]
        exact hz₀.coefs e he
  have zN : siteScalar z "noise_scale" = σ := by
    unfold siteScalar at hN₀ ⊢
    rw [z3]; exact hN₀
  -- everything but the prior of the effect is bounded
  obtain ⟨B, hB⟩ := priors_sum_le (kind := kind) hq ((usedEffects kind m).filter fun e => e.name ≠ fe.name)
  obtain ⟨D, hD⟩ := lik_sum_le hlik
  have hR : ∀ θ, UsualSizes kind cs (usedEffects kind m) θ → siteScalar θ "noise_scale" = σ →
      restOf position kind days b fe.name st cs y c x m lik ns scale os θ
        ≤ (-Real.log os - Real.log (2 * Real.pi) / 2) + cs.length * (-Real.log (2 * b)) + B
          + halfNormalLP ns σ + D := by
    intro θ hθ hσ
    unfold restOf
    rw [hσ]
    have h2 := sum_map_le_length (laplaceLP_le hb0) (θ "changepoint_coefficients").data
    rw [hθ.trend.2] at h2
    have h3 := hB θ fun e he => hθ.coefs e (List.mem_filter.1 he).1
    have h1 := normalLP_le (st.offsetLoc.headD 0) os ((θ "offset").data.headD 0)
    have h4 := hD fun t => usualTrend days st cs θ t + ((usedEffects kind m).map fun fe =>
          combine (kind fe.name).modeOf (usualTrend days st cs θ t)
            (dot ((kind fe.name).features position (firstPosition position y.times) fe.cols t
              (rowAt x t)) (θ (fe.name ++ "/coefs")).data)).sum
    exact add_le_add (add_le_add (add_le_add (add_le_add h1 h2) h3) le_rfl) h4
  set M := (-Real.log os - Real.log (2 * Real.pi) / 2) + cs.length * (-Real.log (2 * b)) + B
          + halfNormalLP ns σ + D
  refine ⟨2 * (M - restOf position kind days b fe.name st cs y c x m lik ns scale os z), fun s θ L h0 hθ => ?_⟩
  obtain ⟨hz, hN, hL, hmax⟩ := hθ
  have hzk := (rescaled_sizes _ _).1 hz
  obtain ⟨A, hA⟩ := usual_defined_at (rescaled_usual hU fe.name s) hT hfit (rescaled_waves hw _ _) hs hcs hz
    ((rescaled_sizes fe.name s).2 zs) hL
  have i1 := hmax z A ((rescaled_sizes _ _).2 zs) zN hA
  have eL := effect_split hU hT hfit hb hs hcs hfe s hzk.trend hL
  have eA := effect_split hU hT hfit hb hs hcs hfe s zs.trend hA
  rw [eL, eA, sum_normalLP, sum_normalLP, hzk.coefs fe hfe, zs.coefs fe hfe, z4] at i1
  have hz0 : ((List.replicate ((kind fe.name).size fe.cols) (0 : ℝ)).map (· ^ 2)).sum = 0 := by
    simp
  rw [hz0, mul_zero] at i1
  have i2 := hR θ hzk hN
  set g := ((θ (fe.name ++ "/coefs")).data.map (· ^ 2)).sum
  have i3 : 1 / (2 * s ^ 2) * g ≤ M - restOf position kind days b fe.name st cs y c x m lik ns scale os z := by
    linarith
  have h2 : 0 < 2 * s ^ 2 := by positivity
  rw [one_div, inv_mul_le_iff₀ h2] at i3
  linarith

/-- **C101**: with the noise level given, the changes of the growth rate vanish with the changepoint
prior scale: the trend becomes a straight line. -/
theorem C101_changepoints_vanish (hU : Usual position compile order days suggest p kind cfg)
    (hT : Training cfg y c X x) (hw : ∀ n ss mode s, kind n = .seasonal ss mode s → waves ss ≠ [])
    (hq : ∀ n, ∃ B, ∀ v, (kind n).prior v ≤ B) {lik : Likelihood} (ns : ℝ) {scale : ℝ} (os : ℝ) {σ : ℝ}
    (hlik : BoundedLikelihood lik σ scale c y.rows) :
    ∃ C, ∀ b m s cs θ L, 0 < b → uniFitData (withTrendScale days suggest p cfg b) y X = .ok m →
      m.trend.st.2 = .piecewise (some s) → s.cps = [cs] →
      BestIn kind lik cs ns scale os (· = σ) m θ L →
      ((θ "changepoint_coefficients").data.map (|·|)).sum ≤ b * C := by
  by_cases hex : ∃ b m s cs θ L, 0 < b ∧ uniFitData (withTrendScale days suggest p cfg b) y X = .ok m ∧
      m.trend.st.2 = .piecewise (some s) ∧ s.cps = [cs] ∧ BestIn kind lik cs ns scale os (· = σ) m θ L
  swap
  · exact ⟨0, fun b m s cs θ L h0 h1 h2 h3 h => (hex ⟨b, m, s, cs, θ, L, h0, h1, h2, h3, h⟩).elim⟩
  obtain ⟨b₀, m₀, s₀, cs, θ₀, L₀, -, hfit₀, hs₀, hcs₀, hz₀, hN₀, -⟩ := hex
  let z : SiteEnv ℝ := fun n => if n = "changepoint_coefficients" then
    ⟨[cs.length], List.replicate cs.length 0⟩ else θ₀ n
  have z1 : z "offset" = θ₀ "offset" := if_neg (by decide)
  have z2 : (z "changepoint_coefficients").data = List.replicate cs.length 0 := rfl
  have z3 : z "noise_scale" = θ₀ "noise_scale" := if_neg (by decide)
  have z4 : ∀ n : String, z (n ++ "/coefs") = θ₀ (n ++ "/coefs") := fun n =>
    if_neg (coefs_site_ne _ (by decide))
  have zs : UsualSizes kind cs (usedEffects kind m₀) z := by
    refine ⟨⟨?_, ?_⟩, ?_, ?_⟩
    · rw [z1]; exact hz₀.trend.1
    · rw [z2, List.length_replicate]
    · rw [z3]; exact hz₀.noise
    · intro e he
      rw [z4]
      exact hz₀.coefs e he
  have zN : siteScalar z "noise_scale" = σ := by
    unfold siteScalar at hN₀ ⊢
    rw [z3]; exact hN₀
  obtain ⟨B, hB⟩ := priors_sum_le (kind := kind) hq (usedEffects kind m₀)
  obtain ⟨D, hD⟩ := lik_sum_le hlik
  have hR : ∀ θ, UsualSizes kind cs (usedEffects kind m₀) θ → siteScalar θ "noise_scale" = σ →
      restOfTrend position kind days s₀ cs y c x m₀ lik ns scale os θ
        ≤ (-Real.log os - Real.log (2 * Real.pi) / 2) + B + halfNormalLP ns σ + D := by
    intro θ hθ hσ
    unfold restOfTrend
    rw [hσ]
    have h3 := hB θ hθ.coefs
    have h1 := normalLP_le (s₀.offsetLoc.headD 0) os ((θ "offset").data.headD 0)
    have h4 := hD fun t => usualTrend days s₀ cs θ t + ((usedEffects kind m₀).map fun fe =>
          combine (kind fe.name).modeOf (usualTrend days s₀ cs θ t)
            (dot ((kind fe.name).features position (firstPosition position y.times) fe.cols t
              (rowAt x t)) (θ (fe.name ++ "/coefs")).data)).sum
    exact add_le_add (add_le_add (add_le_add h1 h3) le_rfl) h4
  set M := (-Real.log os - Real.log (2 * Real.pi) / 2) + B + halfNormalLP ns σ + D
  refine ⟨M - restOfTrend position kind days s₀ cs y c x m₀ lik ns scale os z,
    fun b m s cs' θ L h0 hfit hs hcs hθ => ?_⟩
  obtain ⟨et, ec, eo⟩ := withTrendScale_state hfit₀ hfit hs₀ hs
  rw [hcs, hcs₀] at ec
  cases ec
  have ef := withTrendScale_fitted hfit₀ hfit
  have eu : usedEffects kind m = usedEffects kind m₀ := by
    unfold usedEffects
    rw [ef]
  obtain ⟨hz, hN, hL, hmax⟩ := hθ
  have hU1 := withTrendScale_usual hU b
  have hT1 := withTrendScale_training (days := days) (suggest := suggest) (p := p) hT b
  obtain ⟨A, hA⟩ := usual_defined_at hU1 hT1 hfit hw hs hcs hz (eu ▸ zs) hL
  have i1 := hmax z A (eu ▸ zs) zN hA
  have eL := trend_split hU1 hT1 hfit rfl hs hcs hz.trend hL
  have eA := trend_split hU1 hT1 hfit rfl hs hcs zs.trend hA
  rw [restOfTrend_congr et eo ef] at eL eA
  rw [eL, eA, sum_laplaceLP, sum_laplaceLP, hz.trend.2, zs.trend.2, z2] at i1
  have hz0 : ((List.replicate cs.length (0 : ℝ)).map (|·|)).sum = 0 := by simp
  rw [hz0, mul_zero] at i1
  have i2 := hR θ (eu ▸ hz) hN
  set g := ((θ "changepoint_coefficients").data.map (|·|)).sum
  have i3 : 1 / b * g ≤ M - restOfTrend position kind days s₀ cs y c x m₀ lik ns scale os z := by
    linarith
  rwa [one_div, inv_mul_le_iff₀ h0] at i3

/-! ## There are best fits -/

theorem bestIn_exists (hU : Usual position compile order days suggestLinear p kind cfg)
    (hp : Starts p) (hT : Training cfg y c X x) (hfit : uniFitData cfg y X = .ok m) {b : ℝ}
    (hb : p.priorScale = .scalar b) (hb0 : 0 < b)
    (hw : ∀ n ss mode s, kind n = .seasonal ss mode s → waves ss ≠ [])
    (hpc : ∀ n, Continuous (kind n).prior) (hpt : ∀ n, Filter.Tendsto (kind n).prior (Filter.cocompact ℝ) Filter.atBot)
    {s : PiecewiseState ℝ τ} {cs : List ℝ} (hs : m.trend.st.2 = .piecewise (some s)) (hcs : s.cps = [cs])
    (ns scale σ : ℝ) {os : ℝ} (hos : os ≠ 0) : ∃ θ L, BestIn kind .normal cs ns scale os (· = σ) m θ L := by
  obtain ⟨s', cs', hs', hcs', hE⟩ := C94_usual_exists hU hT hfit hb hw
  rw [hs] at hs'
  cases hs'
  rw [hcs] at hcs'
  cases hcs'
  obtain ⟨ho, hr⟩ := usual_offset hU hp hT hfit hs
  obtain ⟨θ, h1, h2, L, hL, hmax⟩ := hE ho hr ns scale os σ hb0 hos hpc hpt
  refine ⟨θ, L, h2, by rw [siteScalar, h1]; rfl, hL, fun θ₂ L₂ hz hn hL₂ => hmax θ₂ L₂ hz ?_ hL₂⟩
  have := hz.noise
  unfold siteScalar at hn
  match hd : (θ₂ "noise_scale").data, this with
  | [a], _ =>
    rw [hd] at hn
    exact congrArg (fun a => [a]) hn

end

/-! ## Examples -/

noncomputable section

theorem exBounded101 (n : String) : ∃ B, ∀ v, (exKind95 n).prior v ≤ B := by
  unfold exKind95
  split
  · exact ⟨_, fun v => normalLP_le _ _ _⟩
  · exact ⟨_, fun v => normalLP_le _ _ _⟩

theorem exRescaled101 (n₀ : String) {s : ℝ} (hs : s ≠ 0) (n : String) : Continuous (rescaled exKind95 n₀ s n).prior ∧
    Filter.Tendsto (rescaled exKind95 n₀ s n).prior (Filter.cocompact ℝ) Filter.atBot := by
  by_cases h : n = n₀
  · have : (rescaled exKind95 n₀ s n).prior = normalLP 0 s := by
      rw [rescaled, if_pos h]
      exact (withScale_same (position := fun _ : ℤ => 0) (compile := fun _ => .error .keyError) (order := id) s _).2.2.2.2.2
    rw [this]
    exact ⟨continuous_normalLP _ _, tendsto_normalLP _ hs⟩
  · rw [rescaled, if_neg h]
    exact ⟨exContinuous98 n, exTendsto98 n⟩

/-- The effect of the columns of `X` (three coefficients) with the prior scales 1/10 and 10. -/
example : ∃ m s cs fe θ θ' L L', uniFitData exCfg95 exY85 (some exX97) = .ok m ∧
    m.trend.st.2 = .piecewise (some s) ∧ s.cps = [cs] ∧ fe ∈ usedEffects exKind95 m ∧ fe.cols.length = 3 ∧
    BestIn (rescaled exKind95 fe.name (1 / 10)) .normal cs (1 / 2) 1 (1 / 10) (· = 1) m θ L ∧
    BestIn (rescaled exKind95 fe.name 10) .normal cs (1 / 2) 1 (1 / 10) (· = 1) m θ' L' ∧
    ((θ (fe.name ++ "/coefs")).data.map (· ^ 2)).sum ≤ ((θ' (fe.name ++ "/coefs")).data.map (· ^ 2)).sum ∧
    ∃ C, ∀ s θ L, 0 < s →
      BestIn (rescaled exKind95 fe.name s) .normal cs (1 / 2) 1 (1 / 10) (· = 1) m θ L →
      ((θ (fe.name ++ "/coefs")).data.map (· ^ 2)).sum ≤ s ^ 2 * C := by
  obtain ⟨m, s, cs, hm, hs, hcs, -⟩ := exBest98
  obtain ⟨fe, hfe, hn, hc, -⟩ := exCols97 hm
  have hk : exKind95 fe.name = .linear "multiplicative" (normalLP 0 1) := by
    rw [hn]
    rfl
  have hu : fe ∈ usedEffects exKind95 m := List.mem_filter.2 ⟨hfe, by rw [hk, hc]; rfl⟩
  have hB : ∀ r : ℝ, r ≠ 0 → ∃ θ L, BestIn (rescaled exKind95 fe.name r) .normal cs (1 / 2) 1 (1 / 10) (· = 1) m θ L :=
    fun r hr => bestIn_exists (rescaled_usual exUsual95 _ _) (.inl rfl) exTraining97 hm (b := 2) rfl (by norm_num)
      (rescaled_waves exWaves98 _ _) (fun n => (exRescaled101 _ hr n).1) (fun n => (exRescaled101 _ hr n).2) hs hcs
      _ _ _ (by norm_num)
  obtain ⟨θ, L, hθ⟩ := hB (1 / 10) (by norm_num)
  obtain ⟨θ', L', hθ'⟩ := hB 10 (by norm_num)
  exact ⟨m, s, cs, fe, θ, θ', L, L', hm, hs, hcs, hu, by rw [hc]; rfl, hθ, hθ',
    (C101_effect exUsual95 exTraining97 hm (b := 2) rfl exWaves98 hs hcs hu (by norm_num) (by norm_num) hθ hθ').1,
    C101_effect_vanishes exUsual95 exTraining97 hm (b := 2) rfl (by norm_num) exWaves98 exBounded101 hs hcs hu _ _
      (boundedLikelihood_normal _ _ _ _)⟩

theorem exTrendScale101 (b : ℝ) (hb : 0 < b) :
    ∃ m s cs θ L, uniFitData (withTrendScale (fun n : ℤ => (n : ℝ)) suggestLinear exP85 exCfg95 b) exY85 (some exX97) = .ok m ∧
      m.trend.st.2 = .piecewise (some s) ∧ s.cps = [cs] ∧
      BestIn exKind95 .normal cs (1 / 2) 1 (1 / 10) (· = 1) m θ L := by
  have hU := withTrendScale_usual exUsual95 b
  have hT := withTrendScale_training (days := fun n : ℤ => (n : ℝ)) (suggest := suggestLinear) (p := exP85) exTraining97 b
  obtain ⟨m, hm⟩ := C98_fits hU ⟨exValid98.interval, exValid98.range, .inl rfl, exValid98.seasons, exValid98.regexes⟩
    (fun _ _ h => Int.cast_lt.2 h) hT (by simp [exY85]) (by rintro _ ⟨⟩ a ha; exact ha)
  obtain ⟨s, cs, hs, hcs, -⟩ := usual_trend hU hT hm
  obtain ⟨θ, L, hθ⟩ := bestIn_exists hU (.inl rfl) hT hm rfl hb exWaves98 exContinuous98 exTendsto98 hs hcs (1 / 2) 1 1
    (os := 1 / 10) (by norm_num)
  exact ⟨m, s, cs, θ, L, hm, hs, hcs, hθ⟩

/-- The changepoint prior scales 1/20 and 2. -/
example : ∃ m m' s cs θ θ' L L',
    uniFitData (withTrendScale (fun n : ℤ => (n : ℝ)) suggestLinear exP85 exCfg95 (1 / 20)) exY85 (some exX97) = .ok m ∧
    uniFitData (withTrendScale (fun n : ℤ => (n : ℝ)) suggestLinear exP85 exCfg95 2) exY85 (some exX97) = .ok m' ∧
    m.trend.st.2 = .piecewise (some s) ∧ s.cps = [cs] ∧
    BestIn exKind95 .normal cs (1 / 2) 1 (1 / 10) (· = 1) m θ L ∧
    BestIn exKind95 .normal cs (1 / 2) 1 (1 / 10) (· = 1) m' θ' L' ∧
    ((θ "changepoint_coefficients").data.map (|·|)).sum
      ≤ ((θ' "changepoint_coefficients").data.map (|·|)).sum := by
  obtain ⟨m, s, cs, θ, L, hm, hs, hcs, hθ⟩ := exTrendScale101 (1 / 20) (by norm_num)
  obtain ⟨m', s', cs', θ', L', hm', hs', hcs', hθ'⟩ := exTrendScale101 2 (by norm_num)
  obtain ⟨-, ec, -⟩ := withTrendScale_state hm hm' hs hs'
  rw [hcs, hcs'] at ec
  cases ec
  exact ⟨m, m', s, cs, θ, θ', L, L', hm, hm', hs, hcs, hθ, hθ',
    (C101_changepoints exUsual95 exTraining97 exWaves98 (by norm_num) (by norm_num) hm hm' hs hcs hθ hθ').1⟩

example := C101_changepoints_vanish exUsual95 exTraining97 exWaves98 exBounded101 (1 / 2) (1 / 10) (σ := 1)
  (boundedLikelihood_normal 1 1 "y" exY85.rows)

end
end PV
