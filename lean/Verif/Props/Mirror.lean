import Verif.Lemmas.MovedScale
import Verif.Props.UsualModel

/-!
# C96: turning the target upside down, or raising it, does the same to the forecast
-/

set_option linter.unusedSectionVars false

namespace PV
open Tensor

/-! ## Specification -/

/-- Additive or multiplicative. -/
def EffectKind.mode : EffectKind → String
  | .seasonal _ mode _ => mode
  | .linear mode _ => mode

/-- What has to hold: the target is mirrored or not, and raised by `a`.  The prior of an additive
linear effect does not distinguish `v` from `-v` if the target is mirrored; a multiplicative effect
excludes raising the target. -/
structure Moves {τ : Type} [DecidableEq τ] (ε a : ℝ) (p : PiecewiseParams ℝ τ) (kind : String → EffectKind)
    (cfg : UniConfig (UsualAttrs τ) (Scale ℝ) τ ℝ (AnyData ℝ) ℝ) : Prop where
  sign : ε = 1 ∨ ε = -1
  detrend : p.detrend = none ∨ ∃ pos, p.detrend = some fun y => .ok (fittedLines pos y)
  discrete : cfg.discrete = false
  even : ∀ n prior, kind n = .linear "additive" prior → ∀ v, prior (ε * v) = prior v
  level : ∀ n ∈ "exogenous_variables_effect" :: cfg.effects.map EffectSpec.name,
    (kind n).mode ≠ "additive" → a = 0

/-- The parameters for the moved target: the offset is moved; changepoint coefficients and
coefficients of additive effects change sign if the target is mirrored; the coefficients of
multiplicative effects and the noise stay. -/
structure MovedSites (ε a : ℝ) (kind : String → EffectKind) (θ θ' : SiteEnv ℝ) : Prop where
  array : (θ "offset").WF
  offset : θ' "offset" = (θ "offset").map (moved ε a)
  changepoints : θ' "changepoint_coefficients" = (θ "changepoint_coefficients").map (ε * ·)
  coefs : ∀ n, θ' (n ++ "/" ++ "coefs") = if (kind n).mode = "additive"
    then (θ (n ++ "/" ++ "coefs")).map (ε * ·) else θ (n ++ "/" ++ "coefs")
  noise : θ' "noise_scale" = θ "noise_scale"

/-- Two fitted forecasters, the second on the moved target: the same effects on the same data, the
target array moved, and a trend that differs in the suggested rates and offset only. -/
structure FitMoves {τ : Type} [DecidableEq τ] (ε a : ℝ)
    (m m' : UniFit (UsualAttrs τ) (Scale ℝ) τ ℝ (AnyData ℝ) ℝ) : Prop where
  fitted : m'.fitted = m.fitted
  warnings : m'.warnings = m.warnings
  trendData : m'.trendData = m.trendData
  data : m'.data = m.data
  objs : m'.objs = m.objs
  target : m'.yArray = m.yArray.map (moved ε a)
  trendClass : m'.trend.cls = m.trend.cls
  trendMade : m'.trend.made = m.trend.made
  trend : ∃ s, m.trend.st.2 = .piecewise (some s) ∧
    m'.trend.st = (m.trend.st.1, .piecewise (some (s.moved ε a))) ∧ ∀ v ∈ s.priorLoc, v = 0

section
variable {τ : Type} [LinearOrder τ] {position : τ → ℤ} {compile : String → PyM (String → Bool)}
  {order : List String → List String} {days : τ → ℝ} {p : PiecewiseParams ℝ τ}
  {kind : String → EffectKind} {cfg : UniConfig (UsualAttrs τ) (Scale ℝ) τ ℝ (AnyData ℝ) ℝ}
  {y : Frame String τ ℝ} {X : Option (Frame String τ ℝ)} {ε a : ℝ} {θ θ' : SiteEnv ℝ}
  {m m' : UniFit (UsualAttrs τ) (Scale ℝ) τ ℝ (AnyData ℝ) ℝ}

/-! ## Fitting -/

/-- The effects never look at the target. -/
theorem kind_fit_target (k : EffectKind) (y y' : Frame String τ ℝ) (X : Option (Frame String τ ℝ))
    (sc : Scale ℝ) :
    (k.effect position compile order).clone.fit y' X sc
      = (k.effect position compile order).clone.fit y X sc := by
  cases k with
  | seasonal ss mode s => rfl
  | linear mode pr => rfl

theorem fitEffects_target (hU : Usual position compile order days suggestLinear p kind cfg)
    (y y' : Frame String τ ℝ) (x : Frame String τ ℝ) (sc : Scale ℝ) :
    fitEffects cfg.compile cfg.effects cfg.default (some x) y' sc
      = fitEffects cfg.compile cfg.effects cfg.default (some x) y sc := by
  have hstep : ∀ e ∈ cfg.effects, ∀ acc, fitStep cfg.compile (some x) y' sc acc e
      = fitStep cfg.compile (some x) y sc acc e := by
    intro e he acc
    unfold fitStep
    simp only [hU.effects e he, kind_fit_target (kind e.name) y y']
  have hfold : ∀ (l : List (EffectSpec (UsualAttrs τ) (Frame String τ ℝ) (Scale ℝ) τ ℝ (AnyData ℝ) ℝ)),
      (∀ e ∈ l, ∀ acc, fitStep cfg.compile (some x) y' sc acc e
        = fitStep cfg.compile (some x) y sc acc e) → ∀ acc,
      l.foldlM (fitStep cfg.compile (some x) y' sc) acc = l.foldlM (fitStep cfg.compile (some x) y sc) acc := by
    intro l
    induction l with
    | nil => intro _ acc; rfl
    | cons e l ih =>
      intro h acc
      rw [List.foldlM_cons, List.foldlM_cons, h e (by simp)]
      congr 1
      funext acc'
      exact ih (fun e' he' => h e' (by simp [he'])) acc'
  unfold fitEffects
  rw [hfold _ hstep]
  simp only [hU.default, kind_fit_target _ y y']

theorem priorVectors_zero {cps : List (List ℝ)} {rates : List ℝ} {ps : ScalarOr ℝ} :
    ∀ v ∈ (priorVectors cps rates ps).1, v = 0 := by
  intro v hv
  unfold priorVectors at hv
  simp only [List.mem_flatMap] at hv
  obtain ⟨q, -, hq⟩ := hv
  exact (List.mem_replicate.1 hq).2

/-- The trend object. -/
theorem trend_fit_moves (hU : Usual position compile order days suggestLinear p kind cfg)
    (hM : Moves ε a p kind cfg) (hy : y.nlevels = 1) (sc : Scale ℝ) :
    ExRel (fun e e' => e'.cls = e.cls ∧ e'.made = e.made ∧
        e.cls = ((piecewiseClass days suggestLinear piecewisePredict p).new.embed
          Attrs.piecewiseEmb AnyData.arrayEmb).cls ∧
        ∃ s, e.st.2 = .piecewise (some s) ∧
          e'.st = (e.st.1, .piecewise (some (s.moved ε a))) ∧ ∀ v ∈ s.priorLoc, v = 0)
      (cfg.trend.fit y X sc) (cfg.trend.fit (y.moved ε a) X sc) := by
  rw [hU.trend, embed_fit, embed_fit]
  unfold EffectObj.fit
  rw [baseFit_runs (by rintro ⟨h, -⟩; cases h), baseFit_runs (by rintro ⟨h, -⟩; cases h)]
  show ExRel _ (Except.map _ (Except.bind (Except.map _ (Except.map some
    (piecewiseFit days suggestLinear p y))) _)) (Except.map _ (Except.bind (Except.map _ (Except.map some
    (piecewiseFit days suggestLinear p (y.moved ε a)))) _))
  rw [piecewiseFit_moved hy hM.detrend]
  cases hs : piecewiseFit days suggestLinear p y with
  | error e => rfl
  | ok s =>
    refine ⟨rfl, rfl, rfl, s, rfl, rfl, ?_⟩
    obtain ⟨h1, -⟩ := piecewiseFit_priors hs
    rw [h1]
    exact priorVectors_zero

/-- The design of the trend does not depend on the suggested rates and offsets. -/
theorem trend_transform_moves {e e' : EffectObj (UsualAttrs τ) (Frame String τ ℝ) (Scale ℝ) τ ℝ (AnyData ℝ) ℝ}
    (hc' : e'.cls = e.cls)
    (hc : e.cls = ((piecewiseClass days suggestLinear piecewisePredict p).new.embed
      Attrs.piecewiseEmb AnyData.arrayEmb).cls) {s : PiecewiseState ℝ τ}
    (hs : e.st.2 = .piecewise (some s)) (hs' : e'.st = (e.st.1, .piecewise (some (s.moved ε a))))
    (x : Option (Frame String τ ℝ)) (fh : List τ) : e'.transform x fh = e.transform x fh := by
  obtain ⟨cls, made, b, st⟩ := e
  obtain ⟨cls', made', st'⟩ := e'
  simp only at hc hc' hs hs'
  subst hc hc' hs hs'
  rfl

/-- **C96**: fitting to the moved target raises the same exception, or makes the same effects with the
same data; only the target array and the suggestions for the trend are moved. -/
theorem C96_fit (hU : Usual position compile order days suggestLinear p kind cfg)
    (hM : Moves ε a p kind cfg) (hy : y.nlevels = 1) :
    ExRel (FitMoves ε a) (uniFitData cfg y X) (uniFitData cfg (y.moved ε a) X) := by
  unfold uniFitData
  simp only [hM.discrete, Bool.false_eq_true, if_false, times_moved, flatVals_moved]
  refine (trend_fit_moves hU hM hy _).bind ?_
  rintro e e' ⟨hc', hmade, hc, s, hs, hs', hz⟩
  refine ExRel.bind (R := (· = ·)) (ExRel.of_eq (fun _ => rfl) rfl) ?_
  rintro x0 _ rfl
  refine ExRel.bind (R := (· = ·)) (ExRel.of_eq (fun _ => rfl) rfl) ?_
  rintro x _ rfl
  refine ExRel.bind (R := (· = ·)) (ExRel.of_eq (fun _ => rfl)
    (trend_transform_moves hc' hc hs hs' _ _).symm) ?_
  rintro td _ rfl
  refine ExRel.bind (R := (· = ·)) (ExRel.of_eq (fun _ => rfl)
    (fitEffects_target hU y (y.moved ε a) x _).symm) ?_
  rintro ⟨fitted, ws⟩ _ rfl
  refine ExRel.bind (R := (· = ·)) (ExRel.of_eq (fun _ => rfl) rfl) ?_
  rintro data _ rfl
  refine ExRel.bind (R := (· = ·)) (ExRel.of_eq (fun _ => rfl) rfl) ?_
  rintro objs _ rfl
  exact ⟨rfl, rfl, rfl, rfl, rfl, rfl, hc', hmade, s, hs, hs', hz⟩

/-! ## The calls -/

theorem kind_call_moves (k : EffectKind) {st : BaseState × UsualAttrs τ} {d : Transformed (AnyData ℝ)}
    (hθ : θ' "coefs" = if k.mode = "additive" then (θ "coefs").map (ε * ·) else θ "coefs")
    (ha : k.mode ≠ "additive" → a = 0) :
    CallMoves ε a ((k.effect position compile order).cls.call st θ d)
      ((k.effect position compile order).cls.call st θ' d) := by
  have hd : (θ' "coefs").data = if k.mode = "additive" then (θ "coefs").data.map (ε * ·)
      else (θ "coefs").data := by
    rw [hθ]; split <;> rfl
  cases k with
  | seasonal ss mode s =>
    intro p p' hw hp
    simp only [EffectKind.effect, EffectObj.embed, EffectClass.embed, fourierNew, fourierClass]
    cases Attrs.fourierEmb.proj st.2 with
    | none => rfl
    | some sf =>
      cases d.proj AnyData.nestedEmb with
      | none => rfl
      | some d =>
        simp only
        cases sf.linear with
        | none => rfl
        | some l =>
          cases d with
          | emptyDict => rfl
          | data d => exact linear_moves hd ha p p' hw hp
  | linear mode pr =>
    intro p p' hw hp
    simp only [EffectKind.effect, EffectObj.embed, EffectClass.embed, linearClass]
    cases Attrs.plainEmb.proj st.2 with
    | none => rfl
    | some sf =>
      cases d.proj AnyData.arrayEmb with
      | none => rfl
      | some d => exact linear_moves hd ha p p' hw hp

/-- The classes of the fitted effects. -/
theorem fitted_classes (hU : Usual position compile order days suggestLinear p kind cfg)
    (hfit : uniFitData cfg y X = .ok m) :
    (∀ e ∈ callsOf m.objs, e.1 ≠ "trend") ∧
    ∀ e ∈ callsOf m.objs, e.1 ∈ "exogenous_variables_effect" :: cfg.effects.map EffectSpec.name ∧
      ∃ st, e.2 = ((kind e.1).effect position compile order).cls.call st := by
  obtain ⟨yT, x0, x, hyT, htf, hx0, hx, htd, hfe, hdata, hobjs, hya⟩ := uniFitData_ok hfit
  obtain ⟨hn', htr'⟩ := C17_names hU.nodup hU.reserved hU.notTrend hfe
  have hobj := (transformEffects_get hn' hdata hobjs).1
  have hmem : ∀ e ∈ callsOf m.objs, ∃ fe ∈ m.fitted, e = (fe.name, fe.effect.cls.call fe.effect.st) := by
    intro e he
    rw [hobj] at he
    simp only [callsOf, List.map_map, List.mem_map] at he
    obtain ⟨fe, hfe, rfl⟩ := he
    exact ⟨fe, List.mem_of_mem_filter hfe, rfl⟩
  have hcls : ∀ fe ∈ m.fitted,
      fe.name ∈ "exogenous_variables_effect" :: cfg.effects.map EffectSpec.name ∧
      fe.effect.cls = ((kind fe.name).effect position compile order).cls := by
    obtain ⟨fes, hf, -, hcase⟩ := fitEffects_ok.1 hfe
    have h1 : ∀ fe ∈ fes, fe.name ∈ "exogenous_variables_effect" :: cfg.effects.map EffectSpec.name ∧
        fe.effect.cls = ((kind fe.name).effect position compile order).cls := fun fe hfe => by
      obtain ⟨e, he, hn, -, hfit⟩ := exists_of_forall₂ hf hfe
      rw [hU.effects e he, ← hn] at hfit
      exact ⟨List.mem_cons_of_mem _ (hn ▸ List.mem_map_of_mem he), (effectFit_ok hfit).1⟩
    rcases hcase with ⟨-, h⟩ | ⟨eff, -, h2, h⟩
    · rw [h]; exact h1
    · rw [h]
      intro fe hfe
      rcases List.mem_append.1 hfe with h3 | h3
      · exact h1 fe h3
      · cases List.mem_singleton.1 h3
        rw [hU.default] at h2
        exact ⟨List.mem_cons_self .., (effectFit_ok h2).1⟩
  constructor
  · intro e he
    obtain ⟨fe, hfe, rfl⟩ := hmem e he
    intro h
    exact htr' (List.mem_map.2 ⟨fe, hfe, h⟩)
  · intro e he
    obtain ⟨fe, hfe, rfl⟩ := hmem e he
    obtain ⟨h1, h2⟩ := hcls fe hfe
    exact ⟨h1, fe.effect.st, by simp only [h2]⟩

theorem effects_call_moves (hU : Usual position compile order days suggestLinear p kind cfg)
    (hM : Moves ε a p kind cfg) (hfit : uniFitData cfg y X = .ok m)
    (hθ : MovedSites ε a kind θ θ') :
    ∀ e ∈ callsOf m.objs, ∀ d, CallMoves ε a (e.2 (θ.scope e.1) d) (e.2 (θ'.scope e.1) d) := by
  intro e he d
  obtain ⟨hn, st, hst⟩ := (fitted_classes hU hfit).2 e he
  rw [hst]
  exact kind_call_moves (kind e.1) (hθ.coefs e.1) (hM.level e.1 hn)

theorem trend_class (hU : Usual position compile order days suggestLinear p kind cfg)
    (hfit : uniFitData cfg y X = .ok m) :
    m.trend.cls = ((piecewiseClass days suggestLinear piecewisePredict p).new.embed
      Attrs.piecewiseEmb AnyData.arrayEmb).cls := by
  obtain ⟨yT, x0, x, hyT, htf, -⟩ := uniFitData_ok hfit
  rw [hU.trend] at htf
  obtain ⟨e, he, he'⟩ := embed_fit_ok htf
  rw [he']
  simp only [EffectObj.embed, (piecewise_fit_state he).1]
  rfl

theorem trend_call_moves (hU : Usual position compile order days suggestLinear p kind cfg)
    (hfit : uniFitData cfg y X = .ok m) (hm : FitMoves ε a m m') (hθ : MovedSites ε a kind θ θ')
    (td : Transformed (AnyData ℝ)) :
    ExRel (fun t t' => t' = t.map (moved ε a) ∧ t.WF) (m.trend.cls.call m.trend.st θ td [])
      (m'.trend.cls.call m'.trend.st θ' td []) := by
  obtain ⟨s, hs, hs', -⟩ := hm.trend
  rw [hm.trendClass, hs', trend_class hU hfit]
  rw [show m.trend.st = (m.trend.st.1, .piecewise (some s)) by rw [← hs]]
  simp only [EffectObj.embed, EffectClass.embed, Attrs.piecewiseEmb, EffectClass.new, piecewiseClass]
  cases td.proj AnyData.arrayEmb with
  | none => rfl
  | some d =>
    cases d with
    | emptyDict => rfl
    | data d => exact piecewisePredict_moved hθ.array hθ.offset hθ.changepoints

/-- **C96**: after fitting to the moved target, the data for any horizon is the same, and the forecast
with the moved parameters is the moved forecast: the mean and the recorded trend are moved, the recorded
contribution of every effect changes sign if the target is mirrored. -/
theorem C96_forecast (hU : Usual position compile order days suggestLinear p kind cfg)
    (hM : Moves ε a p kind cfg) (hy : y.nlevels = 1) (hfit : uniFitData cfg y X = .ok m)
    (hfit' : uniFitData cfg (y.moved ε a) X = .ok m') (hθ : MovedSites ε a kind θ θ')
    (X' : Option (Frame String τ ℝ)) (fh : List τ) :
    uniPredictData cfg m' X' fh = uniPredictData cfg m X' fh ∧
    ∀ td data, uniPredictData cfg m X' fh = .ok (td, data) →
      computeMean (m'.trend.cls.call m'.trend.st) td data (callsOf m'.objs) θ'
        = (computeMean (m.trend.cls.call m.trend.st) td data (callsOf m.objs) θ).map fun st =>
          ⟨st.mean.map fun v => ε * v + a,
           st.sites.map fun q => (q.1, q.2.map fun v => if q.1 = "trend" then ε * v + a else ε * v),
           st.predicted.map fun q => (q.1, q.2.map fun v => if q.1 = "trend" then ε * v + a else ε * v)⟩ := by
  have hm : FitMoves ε a m m' := by
    have := C96_fit (X := X) hU hM hy
    rw [hfit, hfit'] at this
    exact this
  obtain ⟨s, hs, hs', -⟩ := hm.trend
  constructor
  · unfold uniPredictData
    simp only [hm.fitted, trend_transform_moves hm.trendClass (trend_class hU hfit) hs hs']
  · intro td data hpd
    have := computeMean_moves (data := data) (trend_call_moves hU hfit hm hθ td) (fitted_classes hU hfit).1
      (fun e he d _ => effects_call_moves hU hM hfit hθ e he d)
    rw [hm.objs]
    have hrec : ∀ l : PyDict (Tensor ℝ), moveRecorded ε a l
        = l.map fun q => (q.1, q.2.map fun v => if q.1 = "trend" then ε * v + a else ε * v) := by
      intro l
      refine List.map_congr_left fun q _ => ?_
      split <;> rfl
    revert this
    cases computeMean (m.trend.cls.call m.trend.st) td data (callsOf m.objs) θ with
    | error e =>
      cases computeMean (m'.trend.cls.call m'.trend.st) td data (callsOf m.objs) θ' with
      | error e' => intro h; exact congrArg Except.error h.symm
      | ok st' => intro h; exact h.elim
    | ok st =>
      cases computeMean (m'.trend.cls.call m'.trend.st) td data (callsOf m.objs) θ' with
      | error e' => intro h; exact h.elim
      | ok st' =>
        intro h
        refine congrArg Except.ok (h.1.trans ?_)
        unfold MeanState.moved
        rw [hrec, hrec]
        rfl

/-! ## The posterior -/

theorem normalLP_moved (hε : ε = 1 ∨ ε = -1) (μ σ v : ℝ) :
    normalLP (moved ε a μ) σ (moved ε a v) = normalLP μ σ v := by
  unfold normalLP moved
  rcases hε with rfl | rfl <;> ring

theorem linearPriors_moves {prior : ℝ → ℝ} {d : Transformed (Tensor ℝ)} {P P' : PyDict (Tensor ℝ)}
    (hlen : (θ' "coefs").data.length = (θ "coefs").data.length)
    (hsum : ((θ' "coefs").data.map prior).sum = ((θ "coefs").data.map prior).sum) :
    ExRel (fun ss ss' => logDensity ss' = logDensity ss) (linearPriors prior θ d P)
      (linearPriors prior θ' d P') := by
  unfold linearPriors
  refine ExRel.bind (R := (· = ·)) (ExRel.of_eq (fun _ => rfl) rfl) ?_
  rintro d _ rfl
  have hs : ExRel (fun (s s' : Stmt) => s'.logProb = s.logProb)
      (sampleSite θ "coefs" (List.replicate (d.shape.getLastD 0) prior))
      (sampleSite θ' "coefs" (List.replicate (d.shape.getLastD 0) prior)) := by
    have h1 := @sampleSite_replicate θ "coefs" (d.shape.getLastD 0) prior
    have h2 := @sampleSite_replicate θ' "coefs" (d.shape.getLastD 0) prior
    unfold sampleSite at h1 h2 ⊢
    rw [hlen] at h2 ⊢
    split
    · rename_i h
      rw [if_pos h] at h1 h2
      show Stmt.logProb _ = Stmt.logProb _
      rw [h1 rfl, h2 rfl, hsum]
    · rfl
  refine hs.bind ?_
  intro s s' h
  show logDensity [s'] = logDensity [s]
  simp [logDensity, h]

theorem kind_priors_moves (hM : Moves ε a p kind cfg) {n : String}
    (hθ : θ' "coefs" = if (kind n).mode = "additive" then (θ "coefs").map (ε * ·) else θ "coefs")
    {d : Transformed (AnyData ℝ)} {P P' : PyDict (Tensor ℝ)} :
    ExRel (fun ss ss' => logDensity ss' = logDensity ss) ((kind n).priors θ d P)
      ((kind n).priors θ' d P') := by
  have hlen : (θ' "coefs").data.length = (θ "coefs").data.length := by
    rw [hθ]; split <;> simp [Tensor.map]
  have hsum : ∀ pr : ℝ → ℝ, ((kind n).mode = "additive" → ∀ v, pr (ε * v) = pr v) →
      ((θ' "coefs").data.map pr).sum = ((θ "coefs").data.map pr).sum := by
    intro pr hpr
    rw [hθ]
    split
    · rename_i h
      simp only [Tensor.map, List.map_map]
      congr 1
      exact List.map_congr_left fun v _ => hpr h v
    · rfl
  cases hk : kind n with
  | seasonal ss mode s =>
    simp only [EffectKind.priors, Priors.embed]
    cases d.proj AnyData.nestedEmb with
    | none => rfl
    | some d =>
      cases d with
      | emptyDict => rfl
      | data d =>
        refine linearPriors_moves (P := P) (P' := P') hlen (hsum _ fun _ v => ?_)
        have := normalLP_moved (a := 0) hM.sign 0 s v
        simpa [moved] using this
  | linear mode pr =>
    simp only [EffectKind.priors, Priors.embed]
    cases d.proj AnyData.arrayEmb with
    | none => rfl
    | some d =>
      refine linearPriors_moves (P := P) (P' := P') hlen (hsum _ fun h v => ?_)
      rw [hk] at h
      simp only [EffectKind.mode] at h
      exact hM.even n pr (by rw [hk, h]) v

theorem sum_normalLP_moved (hε : ε = 1 ∨ ε = -1) (σ : ℝ) : ∀ ms vs : List ℝ,
    (List.zipWith (fun (d : ℝ → ℝ) v => d v) ((ms.map (moved ε a)).map fun m => normalLP m σ)
      (vs.map (moved ε a))).sum
      = (List.zipWith (fun (d : ℝ → ℝ) v => d v) (ms.map fun m => normalLP m σ) vs).sum
  | [], _ => by simp
  | _ :: _, [] => by simp
  | m :: ms, v :: vs => by
    simp only [List.map_cons, List.zipWith_cons_cons, List.sum_cons, normalLP_moved hε,
      sum_normalLP_moved hε σ ms vs]

theorem sum_laplaceLP_moved (hε : ε = 1 ∨ ε = -1) : ∀ ls ss vs : List ℝ, (∀ v ∈ ls, v = 0) →
    (List.zipWith (fun (d : ℝ → ℝ) v => d v) (List.zipWith laplaceLP ls ss) (vs.map (ε * ·))).sum
      = (List.zipWith (fun (d : ℝ → ℝ) v => d v) (List.zipWith laplaceLP ls ss) vs).sum
  | [], _, _, _ => by simp
  | _ :: _, [], _, _ => by simp
  | _ :: _, _ :: _, [], _ => by simp
  | l :: ls, b :: ss, v :: vs, h => by
    have hl : l = 0 := h l (by simp)
    have hv : laplaceLP l b (ε * v) = laplaceLP l b v := by
      subst hl
      unfold laplaceLP
      rcases hε with rfl | rfl <;> simp
    simp only [List.map_cons, List.zipWith_cons_cons, List.sum_cons, hv,
      sum_laplaceLP_moved hε ls ss vs fun v hv => h v (by simp [hv])]

theorem trend_priors_moves (hε : ε = 1 ∨ ε = -1) (hθ : MovedSites ε a kind θ θ')
    {s : PiecewiseState ℝ τ} (hz : ∀ v ∈ s.priorLoc, v = 0) (os : ℝ) (td : Transformed (AnyData ℝ)) :
    ExRel (fun ss ss' => logDensity ss' = logDensity ss)
      (usualTrendPriors os (.piecewise (some s)) θ td [])
      (usualTrendPriors os (.piecewise (some (s.moved ε a))) θ' td []) := by
  simp only [usualTrendPriors, Priors.embed]
  cases td.proj AnyData.arrayEmb with
  | none => rfl
  | some d =>
    unfold piecewisePriors
    simp only [PiecewiseState.moved]
    have h1 : ExRel (fun (s s' : Stmt) => s'.logProb = s.logProb)
        (sampleSite θ "offset" (s.offsetLoc.map fun m => normalLP m os))
        (sampleSite θ' "offset" ((s.offsetLoc.map (moved ε a)).map fun m => normalLP m os)) := by
      unfold sampleSite
      rw [hθ.offset]
      simp only [Tensor.map, List.length_map]
      split
      · exact sum_normalLP_moved hε os _ _
      · rfl
    refine h1.bind ?_
    intro so so' ho
    have h2 : ExRel (fun (s s' : Stmt) => s'.logProb = s.logProb)
        (sampleSite θ "changepoint_coefficients" (List.zipWith laplaceLP s.priorLoc s.priorScale))
        (sampleSite θ' "changepoint_coefficients" (List.zipWith laplaceLP s.priorLoc s.priorScale)) := by
      unfold sampleSite
      rw [hθ.changepoints]
      simp only [Tensor.map, List.length_map]
      split
      · exact sum_laplaceLP_moved hε _ _ _ hz
      · rfl
    refine h2.bind ?_
    intro sc sc' hc
    show logDensity [so', sc'] = logDensity [so, sc]
    simp [logDensity, ho, hc]

theorem runMean_moves {D : Type} {data : PyDict D} {trend trend' : EffectCall D ℝ} {tp tp' : Priors D}
    {td : D} {effects : PyDict (EffectCall D ℝ)} {pr : String → Priors D}
    (htr : ExRel (fun t t' => t' = t.map (moved ε a) ∧ t.WF) (trend θ td []) (trend' θ' td []))
    (htp : ExRel (fun ss ss' => logDensity ss' = logDensity ss) (tp θ td []) (tp' θ' td []))
    (hn : ∀ e ∈ effects, e.1 ≠ "trend")
    (hc : ∀ e ∈ effects, ∀ d, CallMoves ε a (e.2 (θ.scope e.1) d) (e.2 (θ'.scope e.1) d))
    (hp : ∀ e ∈ effects, ∀ d P P', ExRel (fun ss ss' => logDensity ss' = logDensity ss)
      (pr e.1 (θ.scope e.1) d P) (pr e.1 (θ'.scope e.1) d P')) :
    ExRel (fun r r' => StateMoves ε a r.1 r'.1 ∧ logDensity r'.2 = logDensity r.2)
      (runMean trend tp td data effects pr θ) (runMean trend' tp' td data effects pr θ') := by
  unfold runMean
  refine htp.bind ?_
  intro ss ss' hss
  refine htr.bind ?_
  rintro t t' ⟨rfl, htw⟩
  refine ExRel.foldlM (Q := fun c d => c = d ∧ c ∈ effects) ?_ ?_ ?_
  · rintro ⟨st, l⟩ ⟨st', l'⟩ ⟨n, c⟩ _ ⟨hst, hl⟩ ⟨rfl, hm⟩
    unfold runStep
    refine ExRel.bind (R := (· = ·)) (ExRel.of_eq (fun _ => rfl) rfl) ?_
    rintro d _ rfl
    refine (hp _ hm d _ _).bind ?_
    intro k k' hk
    refine (meanStep_moves (hn _ hm) (fun d _ => hc _ hm d) hst).bind ?_
    intro q q' hq
    refine ⟨hq, ?_⟩
    simp only at hl ⊢
    rw [logDensity_append, logDensity_append, logDensity_scope, logDensity_scope, hl, hk]
  · rw [List.forall₂_same]
    exact fun x hx => ⟨rfl, hx⟩
  · refine ⟨⟨by simp [MeanState.moved, moveRecorded], htw, ?_⟩, hss⟩
    intro t0 h0
    simp only [PyDict.get?, if_true, Option.some.injEq] at h0
    exact h0 ▸ htw

theorem obsStmts_moves (hε : ε = 1 ∨ ε = -1) (hn : θ' "noise_scale" = θ "noise_scale")
    (ns scale : ℝ) (ys : List ℝ) (mean : Tensor ℝ) :
    ExRel (fun ss ss' => logDensity ss' = logDensity ss) (obsStmts .normal ns scale ys mean θ)
      (obsStmts .normal ns scale (ys.map (moved ε a)) (mean.map (moved ε a)) θ') := by
  unfold obsStmts
  have h1 : sampleSite θ' "noise_scale" [halfNormalLP ns] = sampleSite θ "noise_scale" [halfNormalLP ns] := by
    unfold sampleSite
    rw [hn]
  rw [h1, show siteScalar θ' "noise_scale" = siteScalar θ "noise_scale" by unfold siteScalar; rw [hn]]
  refine ExRel.bind (R := (· = ·)) (ExRel.of_eq (fun _ => rfl) rfl) ?_
  rintro sn _ rfl
  set σ := siteScalar θ "noise_scale"
  have h2 : ExRel (fun (s s' : Stmt) => s'.logProb = s.logProb)
      (observeSite "obs" ((univariateObs .normal σ scale mean).map ObsDist.logProb) ys)
      (observeSite "obs" ((univariateObs .normal σ scale (mean.map (moved ε a))).map ObsDist.logProb)
        (ys.map (moved ε a))) := by
    unfold observeSite univariateObs
    simp only [Tensor.map, List.length_map, List.map_map]
    split
    · have := sum_normalLP_moved (a := a) hε σ mean.data ys
      simp only [List.map_map] at this
      exact this
    · rfl
  refine h2.bind ?_
  intro so so' ho
  show logDensity [sn, so'] = logDensity [sn, so]
  simp [logDensity, ho]

/-- **C96**: the moved parameters are exactly as probable given the moved target as the parameters
given the target. -/
theorem C96_posterior (hU : Usual position compile order days suggestLinear p kind cfg)
    (hM : Moves ε a p kind cfg) (hy : y.nlevels = 1) (hfit : uniFitData cfg y X = .ok m)
    (hfit' : uniFitData cfg (y.moved ε a) X = .ok m') (hθ : MovedSites ε a kind θ θ')
    (ns scale os : ℝ) :
    logJoint .normal ns scale m'.yArray (m'.trend.cls.call m'.trend.st)
        (usualTrendPriors os m'.trend.st.2) m'.trendData m'.data (callsOf m'.objs)
        (fun n => (kind n).priors) θ'
      = logJoint .normal ns scale m.yArray (m.trend.cls.call m.trend.st)
        (usualTrendPriors os m.trend.st.2) m.trendData m.data (callsOf m.objs)
        (fun n => (kind n).priors) θ := by
  have hm : FitMoves ε a m m' := by
    have := C96_fit (X := X) hU hM hy
    rw [hfit, hfit'] at this
    exact this
  obtain ⟨s, hs, hs', hz⟩ := hm.trend
  have htp : ExRel (fun ss ss' => logDensity ss' = logDensity ss)
      (usualTrendPriors os m.trend.st.2 θ m.trendData [])
      (usualTrendPriors os m'.trend.st.2 θ' m.trendData []) := by
    rw [hs, hs']
    exact trend_priors_moves hM.sign hθ hz os _
  have h := runMean_moves (data := m.data) (pr := fun n => (kind n).priors)
    (trend_call_moves hU hfit hm hθ m.trendData) htp (fitted_classes hU hfit).1
    (fun e he d => effects_call_moves hU hM hfit hθ e he d)
    (fun e he d P P' => kind_priors_moves hM (hθ.coefs e.1))
  rw [hm.objs, hm.data, hm.trendData, hm.target]
  unfold logJoint modelStmts
  symm
  apply ExRel.eq_of
  have hlog : ∀ {x x' : PyM (List Stmt)}, ExRel (fun ss ss' => logDensity ss' = logDensity ss) x x' →
      ExRel (· = ·) (x.map logDensity) (x'.map logDensity) := by
    intro x x' hx
    cases x <;> cases x'
    · exact hx
    · exact hx.elim
    · exact hx.elim
    · exact Eq.symm hx
  apply hlog
  refine h.bind ?_
  rintro ⟨st, l⟩ ⟨st', l'⟩ ⟨⟨hst, -, -⟩, hl⟩
  simp only at hst hl ⊢
  subst hst
  refine (obsStmts_moves hM.sign hθ.noise ns scale m.yArray st.mean).bind ?_
  intro k k' hk
  show logDensity (l' ++ k') = logDensity (l ++ k)
  rw [logDensity_append, logDensity_append, hl, hk]

/-! ## All parameters -/

open Classical in
/-- The parameters for the moved target. -/
noncomputable def moveSites (ε a : ℝ) (kind : String → EffectKind) (θ : SiteEnv ℝ) : SiteEnv ℝ := fun s =>
  if s = "offset" then (θ s).map (moved ε a)
  else if s = "changepoint_coefficients" then (θ s).map (ε * ·)
  else if ∃ n, s = n ++ "/" ++ "coefs" ∧ (kind n).mode = "additive" then (θ s).map (ε * ·)
  else θ s

theorem slash_ne {n s : String} (h : '/' ∉ s.toList) : n ++ "/" ++ "coefs" ≠ s := by
  intro h'
  apply h
  rw [← h']
  simp

theorem slash_inj {n n' : String} (h : n ++ "/" ++ "coefs" = n' ++ "/" ++ "coefs") : n = n' := by
  have := congrArg String.toList h
  simp only [String.toList_append, List.append_assoc] at this
  exact String.toList_inj.1 (List.append_cancel_right this)

theorem moveSites_moved (ε a : ℝ) (kind : String → EffectKind) {θ : SiteEnv ℝ} (h : (θ "offset").WF) :
    MovedSites ε a kind θ (moveSites ε a kind θ) where
  array := h
  offset := by simp [moveSites]
  changepoints := by
    unfold moveSites
    rw [if_neg (by decide), if_pos rfl]
  coefs := by
    intro n
    unfold moveSites
    rw [if_neg (slash_ne (by decide)), if_neg (slash_ne (by decide))]
    by_cases hn : (kind n).mode = "additive"
    · rw [if_pos ⟨n, rfl, hn⟩, if_pos hn]
    · rw [if_neg, if_neg hn]
      rintro ⟨n', h1, h2⟩
      rw [slash_inj h1] at hn
      exact hn h2
  noise := by
    unfold moveSites
    rw [if_neg (by decide), if_neg (by decide), if_neg]
    rintro ⟨n, h1, -⟩
    exact slash_ne (by decide) h1.symm

theorem movedSites_symm (hε : ε = 1 ∨ ε = -1) (h : MovedSites ε a kind θ θ') :
    MovedSites ε (-(ε * a)) kind θ' θ where
  array := by
    rw [h.offset]
    exact map_wf _ h.array
  offset := by
    rw [h.offset, Tensor.map_map]
    have : moved ε (-(ε * a)) ∘ moved ε a = fun x => x := by
      funext v
      simp only [Function.comp, moved]
      rcases hε with rfl | rfl <;> ring
    rw [this, map_id']
  changepoints := by
    rw [h.changepoints, Tensor.map_map]
    have : ((ε * ·) ∘ (ε * ·)) = fun x : ℝ => x := by
      funext v
      simp only [Function.comp]
      rcases hε with rfl | rfl <;> ring
    rw [this, map_id']
  coefs := by
    intro n
    rw [h.coefs n]
    split
    · rw [Tensor.map_map]
      have : ((ε * ·) ∘ (ε * ·)) = fun x : ℝ => x := by
        funext v
        simp only [Function.comp]
        rcases hε with rfl | rfl <;> ring
      rw [this, map_id']
    · rfl
  noise := h.noise.symm

/-- **C96**: all parameters have moved parameters, and all parameters are the moved ones of some. -/
theorem C96_parameters (hε : ε = 1 ∨ ε = -1) (kind : String → EffectKind) (θ : SiteEnv ℝ)
    (h : (θ "offset").WF) :
    (∃ θ', MovedSites ε a kind θ θ') ∧ ∃ θ₀, MovedSites ε a kind θ₀ θ := by
  refine ⟨⟨_, moveSites_moved ε a kind h⟩, moveSites ε (-(ε * a)) kind θ, ?_⟩
  have h' := movedSites_symm hε (moveSites_moved ε (-(ε * a)) kind h)
  have e : -(ε * -(ε * a)) = a := by rcases hε with rfl | rfl <;> ring
  rw [e] at h'
  exact h'

/-- No parameters with an admissible noise level are more probable. -/
def IsBestFit (kind : String → EffectKind) (ns scale os : ℝ) (N : Tensor ℝ → Prop)
    (m : UniFit (UsualAttrs τ) (Scale ℝ) τ ℝ (AnyData ℝ) ℝ) (θ : SiteEnv ℝ) : Prop :=
  N (θ "noise_scale") ∧ ∃ L,
    logJoint .normal ns scale m.yArray (m.trend.cls.call m.trend.st)
      (usualTrendPriors os m.trend.st.2) m.trendData m.data (callsOf m.objs)
      (fun n => (kind n).priors) θ = .ok L ∧
    ∀ θ₂ L₂, (θ₂ "offset").WF → N (θ₂ "noise_scale") →
      logJoint .normal ns scale m.yArray (m.trend.cls.call m.trend.st)
        (usualTrendPriors os m.trend.st.2) m.trendData m.data (callsOf m.objs)
        (fun n => (kind n).priors) θ₂ = .ok L₂ → L₂ ≤ L

/-- **C96**: the best fit to the moved target is the moved best fit. -/
theorem C96_best (hU : Usual position compile order days suggestLinear p kind cfg)
    (hM : Moves ε a p kind cfg) (hy : y.nlevels = 1) (hfit : uniFitData cfg y X = .ok m)
    (hfit' : uniFitData cfg (y.moved ε a) X = .ok m') (hθ : MovedSites ε a kind θ θ')
    (ns scale os : ℝ) (N : Tensor ℝ → Prop) :
    IsBestFit kind ns scale os N m' θ' ↔ IsBestFit kind ns scale os N m θ := by
  unfold IsBestFit
  rw [hθ.noise, C96_posterior hU hM hy hfit hfit' hθ]
  refine and_congr_right fun _ => exists_congr fun L => and_congr_right fun _ => ?_
  constructor
  · intro h θ₂ L₂ hw hN hL
    obtain ⟨θ₃, h3⟩ := (C96_parameters (a := a) hM.sign kind θ₂ hw).1
    refine h θ₃ L₂ (by rw [h3.offset]; exact map_wf _ h3.array) (by rw [h3.noise]; exact hN) ?_
    rw [C96_posterior hU hM hy hfit hfit' h3]
    exact hL
  · intro h θ₂ L₂ hw hN hL
    obtain ⟨θ₃, h3⟩ := (C96_parameters (a := a) hM.sign kind θ₂ hw).2
    refine h θ₃ L₂ h3.array (by rw [← h3.noise]; exact hN) ?_
    rw [← C96_posterior hU hM hy hfit hfit' h3]
    exact hL

/-! ## Units -/

/-- **C96**: mirroring commutes with scaling the target and with scaling the forecast back: the
internal scale of the mirrored target is the same (one series or many). -/
theorem C96_mirror_units (user : Option (Scale ℝ)) (y : Frame String τ ℝ) :
    fitTarget false user (y.moved (-1) 0)
      = (fitTarget false user y).map (fun r => (r.1, r.2.moved (-1) 0)) ∧
    ∀ (s : Scale ℝ) (f : Frame Nat τ ℝ),
      invScaleY false s (f.moved (-1) 0) = (invScaleY false s f).map fun g => g.moved (-1) 0 := by
  constructor
  · unfold fitTarget setYScales
    rw [rawScale_mirror]
    cases rawScale user y with
    | error e => rfl
    | ok s =>
      simp only [bind, Except.bind, scaleY, Bool.false_eq_true, if_false, rowScales_moved]
      cases rowScales (zeroToOne s) y with
      | error e => rfl
      | ok ss =>
        simp only [pure, Except.pure, Except.map]
        rw [applyScales_mirror _ (fun v k => neg_div k v)]
  · intro s f
    simp only [invScaleY, bind, Except.bind, Bool.false_eq_true, if_false, rowScales_moved]
    cases rowScales s f with
    | error e => rfl
    | ok ss =>
      simp only [pure, Except.pure, Except.map]
      rw [applyScales_mirror _ (fun v k => neg_mul v k)]

/-- **C96**: with a scale `k` given by the user, raising the target by `b` raises the scaled target by
`b / k`, and a scaled forecast raised by `b / k` is scaled back to the forecast raised by `b`. -/
theorem C96_shift_units {k : ℝ} (hk : k ≠ 0) (b : ℝ) (y : Frame String τ ℝ) :
    fitTarget false (some (.float k)) (y.moved ε b)
      = (fitTarget false (some (.float k)) y).map (fun r => (r.1, r.2.moved ε (b / k))) ∧
    ∀ f : Frame Nat τ ℝ, invScaleY false (.float k) (f.moved ε (b / k))
      = (invScaleY false (.float k) f).map fun g => g.moved ε b := by
  constructor
  · unfold fitTarget setYScales
    simp only [rawScale, bind, Except.bind, zeroToOne, hk, if_false, scaleY, Bool.false_eq_true,
      rowScales_moved, rowScales, pure, Except.pure, Except.map]
    rw [show (y.moved ε b).rows.map (fun _ => k) = y.rows.map fun _ => k by
      simp [Frame.moved, Frame.mapVals, Function.comp_def], applyScales_shift (a := b / k)]
    intro v
    unfold moved
    field_simp
  · intro f
    simp only [invScaleY, bind, Except.bind, Bool.false_eq_true, if_false, rowScales, pure, Except.pure,
      Except.map]
    rw [show (f.moved ε (b / k)).rows.map (fun _ => k) = f.rows.map fun _ => k by
      simp [Frame.moved, Frame.mapVals, Function.comp_def], applyScales_shift (a := b)]
    intro v
    unfold moved
    field_simp

end

/-! ## Non-vacuity -/

noncomputable section

/-- Mirroring the target of the example of `C95`. -/
theorem exMoves96 : Moves (-1) 0 exP85 exKind95 exCfg95 where
  sign := .inr rfl
  detrend := .inl rfl
  discrete := rfl
  even := by
    intro n prior h
    unfold exKind95 at h
    split at h <;> simp at h
  level := by simp

/-- Additive effects only: raising the target too. -/
def exKind96 (n : String) : EffectKind :=
  if n = "weekly" then .seasonal exSeason95 "additive" 10 else .linear "additive" (normalLP 0 1)

def exCfg96 : UniConfig (UsualAttrs ℤ) (Scale ℝ) ℤ ℝ (AnyData ℝ) ℝ :=
  exDefault95 ((exKind96 "exogenous_variables_effect").effect id someCompile id)

theorem exUsual96 : Usual id someCompile id (fun n : ℤ => (n : ℝ)) suggestLinear exP85 exKind96 exCfg96 where
  trend := rfl
  squeeze := rfl
  interval := ⟨1, rfl⟩
  range := ⟨1, rfl⟩
  effects := by
    intro e he
    cases List.mem_singleton.1 he
    rfl
  default := rfl
  nodup := by simp [exCfg96, exDefault95, exCfg95]
  reserved := by simp [exCfg96, exDefault95, exCfg95]
  notTrend := by simp [exCfg96, exDefault95, exCfg95]

theorem exMoves96' (a : ℝ) : Moves (-1) a exP85 exKind96 exCfg96 where
  sign := .inr rfl
  detrend := .inl rfl
  discrete := rfl
  even := by
    intro n prior h v
    unfold exKind96 at h
    split at h
    · simp at h
    · simp only [EffectKind.linear.injEq, true_and] at h
      subst h
      simp [normalLP]
  level := by
    intro n _ h
    unfold exKind96 at h
    split at h <;> simp [EffectKind.mode] at h

/-- Both fits run, and the second is the mirror image of the first: target `-1, -3, -4`. -/
example : ∃ m', uniFitData exCfg95 (exY85.moved (-1) 0) (some exX85) = .ok m' ∧ FitMoves (-1) 0 exM95 m' ∧
    m'.yArray = [-1, -3, -4] := by
  have h := C96_fit (X := some exX85) exUsual95 exMoves96 (y := exY85) rfl
  rw [exFitted95] at h
  cases hm : uniFitData exCfg95 (exY85.moved (-1) 0) (some exX85) with
  | error e => rw [hm] at h; exact h.elim
  | ok m' =>
    rw [hm] at h
    refine ⟨m', rfl, h, ?_⟩
    rw [FitMoves.target h]
    simp [exM95, moved]

/-- The target `1, 3, 4` mirrored and raised by 10. -/
example : ∃ m', uniFitData exCfg96 (exY85.moved (-1) 10) (some { exX85 with cols := [] }) = .ok m' ∧
    FitMoves (-1) 10 exN95 m' ∧ m'.yArray = [9, 7, 6] := by
  have h := C96_fit (X := some { exX85 with cols := [] }) exUsual96 (exMoves96' 10) (y := exY85) rfl
  rw [show uniFitData exCfg96 exY85 (some { exX85 with cols := [] }) = .ok exN95 from exFitted95d _] at h
  cases hm : uniFitData exCfg96 (exY85.moved (-1) 10) (some { exX85 with cols := [] }) with
  | error e => rw [hm] at h; exact h.elim
  | ok m' =>
    rw [hm] at h
    refine ⟨m', rfl, h, ?_⟩
    rw [FitMoves.target h]
    simp only [exN95, moved, List.map_cons, List.map_nil]
    norm_num

example : ∃ θ', MovedSites (-1) 10 exKind96 exθ95 θ' :=
  (C96_parameters (.inr rfl) exKind96 exθ95 rfl).1

end
end PV
