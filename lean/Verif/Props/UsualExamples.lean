import Verif.Props.UsualFit
import Verif.Props.UsualWorks

/-!
# C98: a best fit can be found, and examples for C94, C95, C97 and C98
-/

set_option linter.unusedSectionVars false

namespace PV
open Tensor Filter

section
variable {τ : Type} [LinearOrder τ]
variable {position : τ → ℤ} {compile : String → PyM (String → Bool)}
  {order : List String → List String} {days : τ → ℝ}
  {p : PiecewiseParams ℝ τ} {kind : String → EffectKind}
  {cfg : UniConfig (UsualAttrs τ) (Scale ℝ) τ ℝ (AnyData ℝ) ℝ} {y : Frame String τ ℝ} {c : String}
  {X : Option (Frame String τ ℝ)} {x : Frame String τ ℝ}
  {m : UniFit (UsualAttrs τ) (Scale ℝ) τ ℝ (AnyData ℝ) ℝ}

/-- The suggested offset is one number. -/
theorem usual_offset (hU : Usual position compile order days suggestLinear p kind cfg)
    (hp : Starts p) (hT : Training cfg y c X x) (hfit : uniFitData cfg y X = .ok m)
    {s : PiecewiseState ℝ τ} (hs : m.trend.st.2 = .piecewise (some s)) :
    s.offsetLoc.length = 1 ∧ s.rates ≠ [] := by
  obtain ⟨yT, x0, x', hyT, htf, -⟩ := uniFitData_ok hfit
  rw [hU.trend] at htf
  obtain ⟨e, he, he'⟩ := embed_fit_ok htf
  obtain ⟨-, s', hs', hpf⟩ := piecewise_fit_state he
  rw [he'] at hs
  simp only [EffectObj.embed, hs'] at hs
  cases hs
  refine single_offset hpf fun y' hy' => ?_
  rw [(hp.same hy').1, hyT, hT.flat]

/-- **C98**: a forecaster with valid parameters and proper priors, fitted to valid data, has a best
fit for every noise level. -/
theorem C98_best (hU : Usual position compile order days suggestLinear p kind cfg)
    (hV : ValidParams p kind cfg) (hmono : StrictMono days) (hT : Training cfg y c X x)
    (h2 : 2 ≤ y.rows.length) (hX : ∀ X', X = some X' → ∀ a ∈ X'.cols, a ∈ x.cols)
    (hw : ∀ n ss mode s, kind n = .seasonal ss mode s → waves ss ≠ []) {b : ℝ}
    (hb : p.priorScale = .scalar b) (hb0 : 0 < b)
    (hpc : ∀ n, Continuous (kind n).prior) (hpt : ∀ n, Tendsto (kind n).prior (cocompact ℝ) atBot) :
    ∃ m s cs, uniFitData cfg y X = .ok m ∧ m.trend.st.2 = .piecewise (some s) ∧ s.cps = [cs] ∧
      ∀ ns scale os σ, os ≠ 0 → ∃ θ, (θ "noise_scale").data = [σ] ∧
        BestGivenNoise kind cs .normal ns scale os m θ := by
  obtain ⟨m, hm⟩ := C98_fits hU hV hmono hT h2 hX
  obtain ⟨s, cs, hs, hcs, hE⟩ := C94_usual_exists hU hT hm hb hw
  obtain ⟨ho, hr⟩ := usual_offset hU hV.plain hT hm hs
  refine ⟨m, s, cs, hm, hs, hcs, fun ns scale os σ hos => ?_⟩
  obtain ⟨θ, h1, h2, L, hL, hmax⟩ := hE ho hr ns scale os σ hb0 hos hpc hpt
  exact ⟨θ, h1, h2, L, hL, fun θ₂ L₂ hz hn hL₂ => hmax θ₂ L₂ hz (by rw [hn, h1]) hL₂⟩

end

/-! ## Examples

A weekly seasonality, a default linear effect, three days of history and three columns: `b` is a copy
of `a`, and `e` has not happened yet. -/

noncomputable section

def exX97 : Frame String Int ℝ :=
  ⟨1, ["a", "b", "e"], [⟨[], 0, fun n => if n = "e" then 0 else 1⟩, ⟨[], 1, fun _ => 0⟩,
    ⟨[], 2, fun n => if n = "e" then 0 else 5⟩]⟩

theorem exTraining97 : Training exCfg95 exY85 "y" (some exX97) exX97 where
  flat := rfl
  column := rfl
  sorted := by simp [exY85]
  some := by simp [exY85]
  features := ⟨exX97, rfl, by
    unfold Frame.locTimes
    rw [if_pos (by simp [exX97, exY85, Frame.times])]
    simp [exX97, exY85, Frame.times]⟩
  dates := ⟨rfl, by simp [exX97], by simp [exY85, Frame.times], by simp [exX97, exY85, Frame.times],
    by simp [exX97]⟩

theorem exValid98 : ValidParams exP85 exKind95 exCfg95 where
  interval := by intro i hi; cases hi; norm_num
  range := by intro i hi; cases hi; norm_num
  plain := .inl rfl
  seasons := by
    intro n
    unfold exKind95
    split
    · intro s hs
      cases List.mem_singleton.1 hs
      norm_num
    · trivial
  regexes := by
    intro e he r hr
    cases List.mem_singleton.1 he
    cases hr

theorem exWaves98 (n : String) (ss : List Season) (mode : String) (s : ℝ)
    (h : exKind95 n = .seasonal ss mode s) : waves ss ≠ [] := by
  unfold exKind95 at h
  split at h
  · cases h
    have : (waves exSeason95).map Wave.name = ["sin_7_1", "cos_7_1"] := by decide +kernel
    intro h
    rw [h] at this
    cases this
  · cases h

theorem exContinuous98 (n : String) : Continuous (exKind95 n).prior := by
  unfold exKind95
  split <;> exact continuous_normalLP _ _

theorem exTendsto98 (n : String) : Tendsto (exKind95 n).prior (cocompact ℝ) atBot := by
  unfold exKind95
  split
  · exact tendsto_normalLP _ (by norm_num)
  · exact tendsto_normalLP _ (by norm_num)

theorem exBest98 : ∃ m s cs, uniFitData exCfg95 exY85 (some exX97) = .ok m ∧
    m.trend.st.2 = .piecewise (some s) ∧ s.cps = [cs] ∧
    ∀ ns scale os σ, os ≠ 0 → ∃ θ, (θ "noise_scale").data = [σ] ∧
      BestGivenNoise exKind95 cs .normal ns scale os m θ :=
  C98_best exUsual95 exValid98 (fun _ _ h => Int.cast_lt.2 h) exTraining97 (by simp [exY85])
    (by rintro _ ⟨⟩ a ha; exact ha) exWaves98 rfl (by norm_num) exContinuous98 exTendsto98

/-- The columns all go to the default effect. -/
theorem exCols97 {m} (hm : uniFitData exCfg95 exY85 (some exX97) = .ok m) :
    ∃ fe ∈ m.fitted, fe.name = "exogenous_variables_effect" ∧ fe.cols = ["a", "b", "e"] ∧
      ∀ fe' ∈ m.fitted, fe' ≠ fe → fe'.cols = [] := by
  obtain ⟨yT, x0, x', -, -, hx0, hx, -, hfe, -⟩ := uniFitData_ok hm
  obtain ⟨x1, h1, h2⟩ := exTraining97.features
  rw [hx0] at h1
  cases h1
  rw [hx] at h2
  cases h2
  obtain ⟨fes, hf, -, hcase⟩ := fitEffects_ok.1 hfe
  obtain ⟨fe, rfl, hfrom⟩ : ∃ fe, fes = [fe] ∧ fe.cols = [] := by
    cases hf with
    | cons h hr =>
      cases hr
      refine ⟨_, rfl, ?_⟩
      exact (Except.ok.inj h.2.1).symm
  have hrem : remainingColumns exX97.cols ([fe].flatMap FittedEffect.cols) = ["a", "b", "e"] := by
    simp only [List.flatMap_cons, List.flatMap_nil, hfrom, List.append_nil]
    decide +kernel
  rcases hcase with ⟨h, -⟩ | ⟨eff, -, -, h⟩
  · rw [hrem] at h; cases h
  · rw [hrem] at h
    refine ⟨⟨defaultEffectName, eff, ["a", "b", "e"]⟩, by rw [h]; simp, rfl, rfl, ?_⟩
    intro fe' hfe' hne
    rw [h] at hfe'
    rcases List.mem_append.1 hfe' with h3 | h3
    · cases List.mem_singleton.1 h3
      exact hfrom
    · exact absurd (List.mem_singleton.1 h3) hne

/-- The coefficient of `e` is zero and those of `a` and `b` are equal. -/
example : ∃ m s cs, uniFitData exCfg95 exY85 (some exX97) = .ok m ∧
    m.trend.st.2 = .piecewise (some s) ∧ s.cps = [cs] ∧
    ∃ θ, (θ "noise_scale").data = [1] ∧ BestGivenNoise exKind95 cs .normal (1 / 2) 1 (1 / 10) m θ ∧
      (θ "exogenous_variables_effect/coefs").data[2]? = some 0 ∧
      (θ "exogenous_variables_effect/coefs").data[0]?
        = (θ "exogenous_variables_effect/coefs").data[1]? := by
  obtain ⟨m, s, cs, hm, hs, hcs, hB⟩ := exBest98
  obtain ⟨fe, hfe, hn, hc, -⟩ := exCols97 hm
  obtain ⟨θ, h1, hθ⟩ := hB (1 / 2) 1 (1 / 10) 1 (by norm_num)
  have hk : exKind95 fe.name = .linear "multiplicative" (normalLP 0 1) := by
    rw [hn]
    rfl
  have hrows : ∀ row ∈ exY85.rows, ∃ a : ℝ, ((exKind95 fe.name).features id
      (firstPosition id exY85.times) fe.cols row.time (rowAt exX97 row.time)) = [a, a, 0] := by
    intro row hrow
    rw [hk, hc]
    simp only [exY85, List.mem_cons, List.not_mem_nil, or_false] at hrow
    rcases hrow with rfl | rfl | rfl <;> simp [EffectKind.features, rowAt, exX97]
  obtain ⟨s', cs', hs', hcs', h⟩ := C97_unseen exUsual95 exTraining97 hm (b := 2) rfl exWaves98 hfe
    (by rw [hk, hc]; rfl) (μ := 0) (sd := 1) (by norm_num) (by rw [hk]; rfl) (j := 2)
    (by rw [hk, hc]; simp [EffectKind.size]) (by
      intro row hrow
      obtain ⟨a, ha⟩ := hrows row hrow
      rw [ha]
      rfl)
  rw [hs] at hs'
  cases hs'
  rw [hcs] at hcs'
  cases hcs'
  obtain ⟨s', cs', hs', hcs', h'⟩ := C97_shared exUsual95 exTraining97 hm (b := 2) rfl exWaves98 hfe
    (by rw [hk, hc]; rfl) (by rw [hk]; exact normalLP_strictConcave _ (by norm_num)) (i := 0) (j := 1)
    (by norm_num) (by rw [hk, hc]; simp [EffectKind.size]) (by
      intro row hrow
      obtain ⟨a, ha⟩ := hrows row hrow
      rw [ha]
      rfl)
  rw [hs] at hs'
  cases hs'
  rw [hcs] at hcs'
  cases hcs'
  have e1 := h .normal (1 / 2) 1 (1 / 10) θ hθ
  have e2 := h' .normal (1 / 2) 1 (1 / 10) θ hθ
  rw [hn] at e1 e2
  exact ⟨m, s, cs, hm, hs, hcs, θ, h1, hθ, e1, e2⟩

/-- Another value of the coefficient of `e` changes the log posterior by its prior only. -/
example : ∃ m s cs L L', uniFitData exCfg95 exY85 (some exX97) = .ok m ∧
    m.trend.st.2 = .piecewise (some s) ∧ s.cps = [cs] ∧
    ∃ θ, (θ "exogenous_variables_effect/coefs").data = [1, 1, 1] ∧
    usualDensity exKind95 .normal (1 / 2) 1 (1 / 10) m θ = .ok L ∧
    usualDensity exKind95 .normal (1 / 2) 1 (1 / 10) m
      (withCoefs θ "exogenous_variables_effect" [1, 1, 0]) = .ok L' ∧ L' - L = 1 / 2 := by
  obtain ⟨m, s, cs, hm, hs, hcs, -⟩ := exBest98
  obtain ⟨fe, hfe, hn, hc, hothers⟩ := exCols97 hm
  have hk : exKind95 fe.name = .linear "multiplicative" (normalLP 0 1) := by
    rw [hn]
    rfl
  obtain ⟨ho, hr⟩ := usual_offset exUsual95 (.inl rfl) exTraining97 hm hs
  obtain ⟨s', cs', hs', hcs', hD⟩ := C95_defined exUsual95 exTraining97 hm (b := 2) rfl exWaves98
  rw [hs] at hs'
  cases hs'
  rw [hcs] at hcs'
  cases hcs'
  let θ : SiteEnv ℝ := fun n =>
    if n = "offset" then ⟨[1], [0]⟩
    else if n = "changepoint_coefficients" then ⟨[cs.length], List.replicate cs.length 0⟩
    else if n = "noise_scale" then ⟨[], [1]⟩
    else if n = "weekly/coefs" then ⟨[2], [0, 0]⟩ else ⟨[3], [1, 1, 1]⟩
  have hnames : ∀ fe' ∈ m.fitted, fe' = fe ∨ fe'.name = "weekly" := by
    obtain ⟨yT, x0, x', -, -, hx0, hx, -, hfe', -⟩ := uniFitData_ok hm
    obtain ⟨fes, hf, -, hcase⟩ := fitEffects_ok.1 hfe'
    intro fe' h
    have key : ∀ f ∈ fes, f.name = "weekly" := by
      cases hf with
      | cons h hr =>
        cases hr
        intro f hf
        cases List.mem_singleton.1 hf
        exact h.1
    rcases hcase with ⟨-, h1⟩ | ⟨eff, -, -, h1⟩
    · rw [h1] at h
      exact .inr (key _ h)
    · rw [h1] at h hfe
      rcases List.mem_append.1 h with h | h
      · exact .inr (key _ h)
      · rcases List.mem_append.1 hfe with h3 | h3
        · exact absurd (hn.symm.trans (key _ h3)) (by decide)
        · exact .inl ((List.mem_singleton.1 h).trans (List.mem_singleton.1 h3).symm)
  have hz : ∀ β : List ℝ, β.length = 3 → UsualSizes exKind95 cs
      (m.fitted.filter fun fe => (exKind95 fe.name).used fe.cols)
      (withCoefs θ "exogenous_variables_effect" β) := by
    intro β hβ
    refine ⟨⟨⟨0, rfl⟩, by simp [withCoefs, θ]⟩, rfl, ?_⟩
    intro fe' hfe'
    rcases hnames fe' (List.mem_of_mem_filter hfe') with rfl | h
    · rw [hk, hn, hc, withCoefs_data]
      simpa [EffectKind.size] using hβ
    · rw [h]
      have : unique ((waves exSeason95).map Wave.name) = ["sin_7_1", "cos_7_1"] := by decide +kernel
      simp [withCoefs, θ, exKind95, EffectKind.size, this]
  have hθ : withCoefs θ "exogenous_variables_effect" [1, 1, 1] = θ := by
    funext n
    unfold withCoefs
    split
    · rename_i h
      rw [h]
      rfl
    · rfl
  have h1 := hz [1, 1, 1] rfl
  rw [hθ] at h1
  obtain ⟨L, hL⟩ := hD ho hr .normal (1 / 2) 1 (1 / 10) _ h1
  obtain ⟨L', hL'⟩ := hD ho hr .normal (1 / 2) 1 (1 / 10) _ (hz [1, 1, 0] rfl)
  refine ⟨m, s, cs, L, L', hm, hs, hcs, θ, rfl, hL, hL', ?_⟩
  obtain ⟨s', cs', hs', hcs', hP⟩ := C97_prior exUsual95 exTraining97 hm (b := 2) rfl hfe
    (by rw [hk, hc]; rfl)
  rw [hs] at hs'
  cases hs'
  rw [hcs] at hcs'
  cases hcs'
  have := hP .normal (1 / 2) 1 (1 / 10) θ (withCoefs θ fe.name [1, 1, 0]) L L' h1.trend
    (withCoefs_only _ _ _) (by
      intro row hrow
      rw [withCoefs_data, hk, hc, hn]
      simp only [exY85, List.mem_cons, List.not_mem_nil, or_false] at hrow
      rcases hrow with rfl | rfl | rfl <;> simp [EffectKind.features, rowAt, exX97, dot, θ])
    hL (by rw [hn]; exact hL')
  rw [this, withCoefs_data, hk, hn]
  show (([1, 1, 0] : List ℝ).map (normalLP 0 1)).sum - (([1, 1, 1] : List ℝ).map (normalLP 0 1)).sum = 1 / 2
  simp [normalLP]
  ring

/-- Two days ahead; `e` may happen on the second day. -/
def exFuture97 (e : ℝ) : Frame String Int ℝ :=
  ⟨1, ["a", "b", "e"], [⟨[], 3, fun n => if n = "e" then 0 else 2⟩, ⟨[], 4, fun n => if n = "e" then e else 1⟩]⟩

/-- The event that never happened in the training data does not change the forecast of a best fit. -/
example : ∃ m s cs, uniFitData exCfg95 exY85 (some exX97) = .ok m ∧
    m.trend.st.2 = .piecewise (some s) ∧ s.cps = [cs] ∧
    ∃ θ st, BestGivenNoise exKind95 cs .normal (1 / 2) 1 (1 / 10) m θ ∧ st.shape = [2, 1] ∧
    ∀ e, ∃ td data r, uniPredictData exCfg95 m (some (exFuture97 e)) [3, 4] = .ok (td, data) ∧
      computeMean (m.trend.cls.call m.trend.st) td data (callsOf m.objs) θ = .ok r ∧ r.mean = st := by
  obtain ⟨m, s, cs, hm, hs, hcs, hB⟩ := exBest98
  obtain ⟨fe, hfe, hn, hc, hothers⟩ := exCols97 hm
  obtain ⟨θ, h1, hθ⟩ := hB (1 / 2) 1 (1 / 10) 1 (by norm_num)
  have hk : exKind95 fe.name = .linear "multiplicative" (normalLP 0 1) := by
    rw [hn]
    rfl
  obtain ⟨s', cs', hs', hcs', h⟩ := C97_unseen exUsual95 exTraining97 hm (b := 2) rfl exWaves98 hfe
    (by rw [hk, hc]; rfl) (μ := 0) (sd := 1) (by norm_num) (by rw [hk]; rfl) (j := 2)
    (by rw [hk, hc]; simp [EffectKind.size]) (by
      intro row hrow
      rw [hk, hc]
      simp only [exY85, List.mem_cons, List.not_mem_nil, or_false] at hrow
      rcases hrow with rfl | rfl | rfl <;> simp [EffectKind.features, rowAt, exX97])
  rw [hs] at hs'
  cases hs'
  rw [hcs] at hcs'
  cases hcs'
  have h0 := h .normal (1 / 2) 1 (1 / 10) θ hθ
  obtain ⟨s', cs', hs', hcs', hF⟩ := C98_forecasts exUsual95 exTraining97 hm exWaves98
  rw [hs] at hs'
  cases hs'
  rw [hcs] at hcs'
  cases hcs'
  have hd : ∀ e, DatesIn (exFuture97 e) [3, 4] := fun e =>
    ⟨rfl, by simp [exFuture97], by simp, by simp [exFuture97], by simp [exFuture97]⟩
  have hr : ∀ e, ∃ td data r, uniPredictData exCfg95 m (some (exFuture97 e)) [3, 4] = .ok (td, data) ∧
      computeMean (m.trend.cls.call m.trend.st) td data (callsOf m.objs) θ = .ok r ∧
      r.mean.shape = [2, 1] := by
    intro e
    obtain ⟨td, data, hp, hmean⟩ := hF (some (exFuture97 e)) (exFuture97 e) [3, 4] rfl (hd e)
      (fun a ha => ha) (by rintro _ ⟨⟩ a ha; exact ha)
    obtain ⟨r, hr, hsh, -⟩ := hmean θ hθ.1
    exact ⟨td, data, r, hp, hr, hsh⟩
  obtain ⟨td, data, r, hp, hr0, hsh⟩ := hr 0
  refine ⟨m, s, cs, hm, hs, hcs, θ, r.mean, hθ, hsh, fun e => ?_⟩
  obtain ⟨td', data', r', hp', hr', -⟩ := hr e
  refine ⟨td', data', r', hp', hr', ?_⟩
  obtain ⟨s', cs', hs', hcs', hG⟩ := C97_forecast exUsual95 exTraining97 hm hfe hk (j := 2) (a := "e")
    (by rw [hc]; rfl) (by
      intro i hi
      rw [hc] at hi
      match i, hi with
      | 0, hi => simp at hi
      | 1, hi => simp at hi
      | 2, _ => rfl
      | i + 3, hi => simp at hi) (fun fe' h1 h2 => by rw [hothers fe' h1 h2]; simp)
  rw [hs] at hs'
  cases hs'
  rw [hcs] at hcs'
  cases hcs'
  exact hG (some (exFuture97 0)) (some (exFuture97 e)) (exFuture97 0) (exFuture97 e) [3, 4] td td' data data'
    θ r r' rfl (hd 0) rfl (hd e) (by
      intro t ht a ha
      simp only [List.mem_cons, List.not_mem_nil, or_false] at ht
      rcases ht with rfl | rfl <;> simp [rowAt, exFuture97, ha]) hp hp' hθ.1.trend h0 hr0 hr'

/-- Without columns all effects are additive: there is exactly one best fit. -/
example : ∃ θ, (θ "noise_scale").data = [1] ∧ BestGivenNoise exKind95 [0] .normal (1 / 2) 1 (1 / 10) exN95 θ ∧
    ∀ θ', θ' "noise_scale" = θ "noise_scale" →
      BestGivenNoise exKind95 [0] .normal (1 / 2) 1 (1 / 10) exN95 θ' →
      θ "offset" = θ' "offset" ∧ (θ "weekly/coefs").data = (θ' "weekly/coefs").data ∧
      (θ "changepoint_coefficients").data = (θ' "changepoint_coefficients").data := by
  have hT : Training exCfg95 exY85 "y" (some { exX85 with cols := [] }) { exX85 with cols := [] } := {
    flat := rfl
    column := rfl
    sorted := by simp [exY85]
    some := by simp [exY85]
    features := ⟨{ exX85 with cols := [] }, rfl, by
      unfold Frame.locTimes
      rw [if_pos (by simp [exX85, exY85, Frame.times])]
      simp [exX85, exY85, Frame.times]⟩
    dates := ⟨rfl, by simp [exX85], by simp [exY85, Frame.times], by simp [exX85, exY85, Frame.times],
      by simp [exX85]⟩ }
  obtain ⟨m, s, cs, hm, hs, hcs, hB⟩ := C98_best exUsual95 exValid98 (fun _ _ h => Int.cast_lt.2 h) hT
    (by simp [exY85]) (by rintro _ ⟨⟩ a ha; exact ha) exWaves98 rfl (by norm_num) exContinuous98 exTendsto98
  rw [exFitted95n] at hm
  cases hm
  have hs0 : exN95.trend.st.2 = .piecewise (some exS85) := rfl
  rw [hs0] at hs
  cases hs
  cases hcs
  obtain ⟨θ, h1, hθ⟩ := hB (1 / 2) 1 (1 / 10) 1 (by norm_num)
  refine ⟨θ, h1, hθ, fun θ' hσ hθ' => ?_⟩
  obtain ⟨s', cs', hs', hcs', hu⟩ := C94_usual_unique exUsual95 hT exFitted95n (b := 2) rfl exWaves98 (by
    intro fe hfe
    cases List.mem_singleton.1 (List.mem_of_mem_filter hfe)
    rfl)
  rw [hs0] at hs'
  cases hs'
  cases hcs'
  obtain ⟨e1, e2, -, e4⟩ := hu (1 / 2) 1 (1 / 10) (by norm_num) (by norm_num) (by
      intro n
      unfold exKind95
      split
      · exact normalLP_strictConcave _ (by norm_num)
      · exact normalLP_strictConcave _ (by norm_num)) θ θ'
    (by simp [siteScalar, h1]) hσ.symm hθ hθ'
  refine ⟨e1, e2 ⟨"weekly", exWeekly95.embed Attrs.fourierEmb AnyData.nestedEmb, []⟩ ?_, e4 ?_⟩
  · exact List.mem_filter.2 ⟨by simp [exN95], rfl⟩
  · intro i c hi
    obtain ⟨rfl, rfl⟩ : i = 0 ∧ c = 0 := by
      rw [List.getElem?_singleton] at hi
      split at hi
      · exact ⟨by assumption, (Option.some.inj hi).symm⟩
      · cases hi
    refine ⟨0, ?_, le_rfl, fun j c' hj hc => ?_⟩
    · simp [exY85, Frame.times, exS85, TrendTime.scaled]
    · rw [List.getElem?_singleton, if_neg (by omega)] at hc
      cases hc

end
end PV
