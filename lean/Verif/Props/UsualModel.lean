import Verif.Lemmas.AnyEffect
import Verif.Lemmas.WaveNames
import Verif.Props.Posterior
import Verif.Props.Seasonality

/-!
# C95: trend, seasonality and regressors in one forecaster
-/

set_option linter.unusedSectionVars false

namespace PV
open Tensor

/-! ## Specification -/

/-- A seasonality: coefficients times sines and cosines of the number of steps since `p0`. -/
noncomputable def seasonAt {τ : Type} (position : τ → ℤ) (seasons : List Season) (p0 : ℤ) (θ : SiteEnv ℝ)
    (t : τ) : ℝ :=
  dot ((unique ((waves seasons).map Wave.name)).map (waveAt (waves seasons) (position t - p0)))
    (θ "coefs").data

/-- What a user adds to a forecaster: a seasonality or a linear effect, with mode and prior. -/
inductive EffectKind where
  | seasonal (seasons : List Season) (mode : String) (priorScale : ℝ)
  | linear (mode : String) (prior : ℝ → ℝ)

section
variable {τ : Type}

/-- The contribution at date `t`, where the trend is `a` and the columns of `X` are `r`. -/
noncomputable def EffectKind.value (position : τ → ℤ) (p0 : ℤ) (cols : List String) :
    EffectKind → SiteEnv ℝ → τ → ℝ → (String → ℝ) → ℝ
  | .seasonal ss mode _, θ, t, a, _ => combine mode a (seasonAt position ss p0 θ t)
  | .linear mode _, θ, _, a, r => combine mode a (dot (cols.map r) (θ "coefs").data)

/-- The log prior of one coefficient. -/
noncomputable def EffectKind.prior : EffectKind → ℝ → ℝ
  | .seasonal _ _ s => normalLP 0 s
  | .linear _ p => p

/-! ## The objects -/

/-- The attributes of the objects of the forecaster. -/
abbrev UsualAttrs (τ : Type) := Attrs ℝ τ (List (List String × ℤ))

/-- The effect object: `LinearFourierSeasonality` (`effects/fourier.py`) or `LinearEffect`
(`effects/linear.py`). -/
noncomputable def EffectKind.effect [DecidableEq τ] (position : τ → ℤ) (compile : String → PyM (String → Bool))
    (order : List String → List String) :
    EffectKind → EffectObj (UsualAttrs τ) (Frame String τ ℝ) (Scale ℝ) τ ℝ (AnyData ℝ) ℝ
  | .seasonal ss mode _ =>
    (fourierNew (fourierFeatures position ss) compile order mode).embed Attrs.fourierEmb
      AnyData.nestedEmb
  | .linear mode _ =>
    (⟨linearClass mode, (.init, ()), (.init, ())⟩ : EffectObj Unit _ _ _ _ _ _).embed Attrs.plainEmb
      AnyData.arrayEmb

/-- The statements of the trend (`effects/trend/piecewise.py` 181-189). -/
noncomputable def usualTrendPriors (offsetScale : ℝ) : UsualAttrs τ → Priors (Transformed (AnyData ℝ))
  | .piecewise st => (piecewisePriors offsetScale st).embed AnyData.arrayEmb
  | _ => fun _ _ _ => .error .attributeError

/-- The statements of an effect (`effects/linear.py`, `effects/fourier.py` 127-151). -/
noncomputable def EffectKind.priors : EffectKind → Priors (Transformed (AnyData ℝ))
  | .seasonal _ _ s => (fourierPriors s).embed AnyData.nestedEmb
  | .linear _ p => (linearPriors p).embed AnyData.arrayEmb

end

section
variable {τ : Type} [LinearOrder τ]

/-- The first step of the seasonality: the first training date. -/
def firstPosition (position : τ → ℤ) (times : List τ) : ℤ := ((times.map position).min?).getD 0

theorem unique_replicate_succ {α : Type} [DecidableEq α] (a : α) : ∀ n,
    unique (List.replicate (n + 1) a) = [a]
  | 0 => by simp [unique]
  | n + 1 => by
    rw [List.replicate_succ, unique, unique_replicate_succ a n]
    simp

theorem firstStep_flat {position : τ → ℤ} {seasons : List Season} {x : Frame String τ ℝ}
    {φ : List (List String × ℤ)} (h : (fourierFeatures position seasons).fit x = .ok φ)
    (hrows : x.rows ≠ []) (hsid : ∀ r ∈ x.rows, r.sid = []) :
    firstStep φ [] = firstPosition position x.times := by
  unfold fourierFeatures at h
  simp only at h
  split at h
  · cases h
    have hs : x.series = [[]] := by
      unfold Frame.series
      have h1 : x.rows.map Row.sid = List.replicate x.rows.length [] :=
        List.eq_replicate_iff.2 ⟨by simp, by
          intro b hb
          obtain ⟨r, hr, rfl⟩ := List.mem_map.1 hb
          exact hsid r hr⟩
      rw [h1]
      obtain ⟨n, hn⟩ : ∃ n, x.rows.length = n + 1 := by
        cases hr : x.rows with
        | nil => exact absurd hr hrows
        | cons a l => exact ⟨_, rfl⟩
      rw [hn, unique_replicate_succ]
    have hr : x.rowsOf [] = x.rows := by
      unfold Frame.rowsOf
      exact List.filter_eq_self.2 fun r hr => by simp [hsid r hr]
    simp [firstStep, hs, hr, firstPosition, Frame.times, Function.comp_def]
  · cases h

variable {position : τ → ℤ} {compile : String → PyM (String → Bool)}
  {order : List String → List String}

theorem linearPriors_logDensity {prior : ℝ → ℝ} {θ : SiteEnv ℝ} {d : Transformed (Tensor ℝ)}
    {p : PyDict (Tensor ℝ)} {ss : List Stmt} (h : linearPriors prior θ d p = .ok ss) :
    logDensity ss = ((θ "coefs").data.map prior).sum := by
  unfold linearPriors at h
  simp only [bind, Except.bind] at h
  cases hd : d.array with
  | error err => rw [hd] at h; cases h
  | ok a =>
    rw [hd] at h
    simp only at h
    cases hs : sampleSite θ "coefs" (List.replicate (a.shape.getLastD 0) prior) with
    | error err => rw [hs] at h; cases h
    | ok c =>
      rw [hs] at h
      cases h
      simp [logDensity, sampleSite_replicate hs]

/-- A fitted seasonality or linear effect is computed date by date, and its prior counts once per
coefficient. -/
theorem kind_fitted (k : EffectKind) {y : Frame String τ ℝ} {x : Frame String τ ℝ} {cols : List String}
    {sc : Scale ℝ} {e : EffectObj (UsualAttrs τ) (Frame String τ ℝ) (Scale ℝ) τ ℝ (AnyData ℝ) ℝ}
    (hfit : (k.effect position compile order).clone.fit y (some { x with cols := cols }) sc = .ok e)
    (hlv : x.nlevels = 1) (hrows : x.rows ≠ []) (hsid : ∀ r ∈ x.rows, r.sid = []) :
    PointwiseEffect e (k.value position (firstPosition position x.times) cols) ∧
      LogPrior e k.priors (fun θ => ((θ "coefs").data.map k.prior).sum) ∧
      e.st.1 = ⟨some cols, some true⟩ ∧
      (∀ ss m s, k = .seasonal ss m s → ∀ s ∈ ss, (s.terms : ℝ) ≤ s.sp / 2) ∧
      (e.cls.tags.skipIfNoMatch = true ↔ ∃ m p, k = .linear m p) := by
  cases k with
  | seasonal ss mode s =>
    simp only [EffectKind.effect, embed_clone] at hfit
    have hst := effectFit_inputCols (by exact hrows) hfit
    obtain ⟨e0, h0, rfl⟩ := embed_fit_ok hfit
    obtain ⟨φ, hφ, hpt⟩ := C84_value (fourierFeatures_byDate position ss) h0 hlv hrows
    refine ⟨embed_pointwiseEffect ?_, embed_logPrior ?_, hst, ?_, ?_⟩
    · rw [show x.times = Frame.times { x with cols := cols } from rfl, ← firstStep_flat hφ hrows hsid]
      exact hpt
    · intro θ x' fh d p st _ h
      match d, h with
      | .data d, h => exact linearPriors_logDensity (p := p) h
      | .emptyDict, h => cases h
    · intro ss' m s' hk
      cases hk
      exact fourierFeatures_fit hφ
    · have hc := (fourier_fitted h0).1
      simp only [EffectObj.embed, EffectClass.embed, hc]
      constructor
      · intro h; cases h
      · rintro ⟨m, p, hk⟩; cases hk
  | linear mode prior =>
    simp only [EffectKind.effect, embed_clone] at hfit
    have hst := effectFit_inputCols (by exact hrows) hfit
    obtain ⟨e0, h0, rfl⟩ := embed_fit_ok hfit
    have hc : e0.cls = linearClass mode := (effectFit_ok h0).1
    refine ⟨embed_pointwiseEffect ?_, embed_logPrior (C85_linear_prior e0 prior), hst, ?_, ?_⟩
    · have h1 := C71_effect (e := e0) (mode := mode) (raw := linearRaw)
        (by rw [hc]; rfl) (by rw [hc]; intros; rfl) (by rw [hc]; intros; rfl) rowWise_linear
      rw [show e0.st.1.inputCols = some cols from congrArg BaseState.inputCols hst] at h1
      exact h1
    · intro ss m s hk; cases hk
    · simp only [EffectObj.embed, EffectClass.embed, hc]
      exact ⟨fun _ => ⟨_, _, rfl⟩, fun _ => rfl⟩


/-! ## The forecaster -/

/-- Is the effect part of the model?  A linear effect without columns is left out. -/
def EffectKind.used : EffectKind → List String → Bool
  | .seasonal .., _ => true
  | .linear .., cols => !cols.isEmpty

/-- A forecaster of one series with a piecewise linear trend and named seasonalities and linear
effects; the columns of `X` that no effect takes go to a linear effect. -/
structure Usual (position : τ → ℤ) (compile : String → PyM (String → Bool))
    (order : List String → List String) (days : τ → ℝ)
    (suggest : List ℝ → Tensor ℝ → PyM (List ℝ × List ℝ)) (p : PiecewiseParams ℝ τ)
    (kind : String → EffectKind) (cfg : UniConfig (UsualAttrs τ) (Scale ℝ) τ ℝ (AnyData ℝ) ℝ) : Prop where
  trend : cfg.trend = ((piecewiseClass days suggest piecewisePredict p).new.embed Attrs.piecewiseEmb
    AnyData.arrayEmb)
  squeeze : p.squeeze = true
  interval : ∃ i, p.interval = .scalar i
  range : ∃ r, p.range = .scalar r
  effects : ∀ e ∈ cfg.effects, e.effect = (kind e.name).effect position compile order
  default : cfg.default = (kind "exogenous_variables_effect").effect position compile order
  nodup : (cfg.effects.map EffectSpec.name).Nodup
  reserved : "exogenous_variables_effect" ∉ cfg.effects.map EffectSpec.name
  notTrend : "trend" ∉ cfg.effects.map EffectSpec.name

/-- The training data: one series `y` in time order with one column, and the features `x`. -/
structure Training (cfg : UniConfig (UsualAttrs τ) (Scale ℝ) τ ℝ (AnyData ℝ) ℝ) (y : Frame String τ ℝ)
    (c : String) (X : Option (Frame String τ ℝ)) (x : Frame String τ ℝ) : Prop where
  flat : y.nlevels = 1
  column : y.cols = [c]
  sorted : y.rows.Pairwise fun a b => a.time < b.time
  some : y.rows ≠ []
  features : ∃ x0, cfg.fitFeatures (X.getD (Frame.ofIndex y.times)) = .ok x0 ∧
    x0.locTimes y.times = .ok x
  dates : DatesIn x y.times

variable {days : τ → ℝ} {suggest : List ℝ → Tensor ℝ → PyM (List ℝ × List ℝ)}
  {p : PiecewiseParams ℝ τ} {kind : String → EffectKind}
  {cfg : UniConfig (UsualAttrs τ) (Scale ℝ) τ ℝ (AnyData ℝ) ℝ} {y : Frame String τ ℝ} {c : String}
  {X : Option (Frame String τ ℝ)} {x : Frame String τ ℝ}
  {m : UniFit (UsualAttrs τ) (Scale ℝ) τ ℝ (AnyData ℝ) ℝ}

theorem Training.times (hT : Training cfg y c X x) : x.times = y.times := by
  obtain ⟨x0, -, hx⟩ := hT.features
  have h1 := times_filtered hT.dates.sorted hT.dates.horizon hT.dates.covers
  rw [List.filter_eq_self.2] at h1
  · exact h1
  · intro r hr
    unfold Frame.locTimes at hx
    split at hx
    · cases hx
      obtain ⟨t, ht, hr⟩ := List.mem_flatMap.1 hr
      have : r.time = t := by simpa using (List.mem_filter.1 hr).2
      rw [this]
      simpa using ht
    · cases hx

theorem Training.rows (hT : Training cfg y c X x) : x.rows ≠ [] := by
  intro h
  have h1 := hT.times
  unfold Frame.times at h1
  rw [h] at h1
  exact hT.some (List.map_eq_nil_iff.1 h1.symm)

/-- What holds of every fitted effect. -/
theorem usual_fitted (hU : Usual position compile order days suggest p kind cfg)
    (hT : Training cfg y c X x) (hfit : uniFitData cfg y X = .ok m) :
    ∀ fe ∈ m.fitted,
      PointwiseEffect fe.effect ((kind fe.name).value position (firstPosition position y.times) fe.cols) ∧
      LogPrior fe.effect (kind fe.name).priors
        (fun θ => ((θ "coefs").data.map (kind fe.name).prior).sum) ∧
      (fe.effect.skip = .ok false ↔ (kind fe.name).used fe.cols = true) ∧
      ∀ ss m s, kind fe.name = .seasonal ss m s → ∀ s ∈ ss, (s.terms : ℝ) ≤ s.sp / 2 := by
  obtain ⟨yT, x0, x', hyT, htf, hx0, hx, htd, hfe, hdata, hobjs, hya⟩ := uniFitData_ok hfit
  obtain ⟨x0', hx0', hx'⟩ := hT.features
  rw [hx0] at hx0'
  cases hx0'
  rw [hx] at hx'
  cases hx'
  have key : ∀ (fe : FittedEffect (UsualAttrs τ) (Frame String τ ℝ) (Scale ℝ) τ ℝ (AnyData ℝ) ℝ) (sc : Scale ℝ),
      ((kind fe.name).effect position compile order).clone.fit y (some { x with cols := fe.cols }) sc
        = .ok fe.effect →
      PointwiseEffect fe.effect ((kind fe.name).value position (firstPosition position y.times) fe.cols) ∧
      LogPrior fe.effect (kind fe.name).priors
        (fun θ => ((θ "coefs").data.map (kind fe.name).prior).sum) ∧
      (fe.effect.skip = .ok false ↔ (kind fe.name).used fe.cols = true) ∧
      ∀ ss m s, kind fe.name = .seasonal ss m s → ∀ s ∈ ss, (s.terms : ℝ) ≤ s.sp / 2 := by
    intro fe sc h
    obtain ⟨h1, h2, h3, h4, h5⟩ := kind_fitted _ h hT.dates.flat hT.rows hT.dates.unlabelled
    rw [hT.times] at h1
    refine ⟨h1, h2, ?_, h4⟩
    unfold EffectObj.skip shouldSkip
    simp only [h3]
    cases hk : kind fe.name with
    | seasonal ss mode s =>
      have : fe.effect.cls.tags.skipIfNoMatch = false := by
        rw [← Bool.not_eq_true, h5]
        rintro ⟨m, p, h⟩
        rw [hk] at h; cases h
      simp [this, EffectKind.used]
    | linear mode pr =>
      have : fe.effect.cls.tags.skipIfNoMatch = true := h5.2 ⟨_, _, hk⟩
      simp [this, EffectKind.used]
  suffices h : ∀ fe ∈ m.fitted, ((kind fe.name).effect position compile order).clone.fit y
      (some { x with cols := fe.cols }) cfg.effectScale = .ok fe.effect from
    fun fe hm => key fe _ (h fe hm)
  obtain ⟨fes, hf, -, hcase⟩ := fitEffects_ok.1 hfe
  have h1 : ∀ fe ∈ fes, ((kind fe.name).effect position compile order).clone.fit y
      (some { x with cols := fe.cols }) cfg.effectScale = .ok fe.effect := fun fe hfe => by
    obtain ⟨e, he, hn, -, hfit⟩ := exists_of_forall₂ hf hfe
    rw [hU.effects e he, ← hn] at hfit
    exact hfit
  rcases hcase with ⟨-, h⟩ | ⟨eff, -, h2, h⟩
  · rw [h]; exact h1
  · rw [h]
    intro fe hfe
    rcases List.mem_append.1 hfe with h3 | h3
    · exact h1 fe h3
    · cases List.mem_singleton.1 h3
      rw [hU.default] at h2
      exact h2

/-- The effects in the model. -/
theorem usual_kept (hU : Usual position compile order days suggest p kind cfg)
    (hT : Training cfg y c X x) (hfit : uniFitData cfg y X = .ok m) :
    kept m.fitted = m.fitted.filter fun fe => (kind fe.name).used fe.cols := by
  unfold kept
  refine List.filter_congr fun fe hfe => ?_
  have := (usual_fitted hU hT hfit fe hfe).2.2.1
  rw [Bool.eq_iff_iff, decide_eq_true_iff]
  exact this

theorem dot_zeros : ∀ (cols : List String) (b : List ℝ), dot (cols.map fun _ => (0 : ℝ)) b = 0
  | [], b => by simp [dot]
  | _ :: cols, [] => by simp [dot]
  | _ :: cols, b :: l => by
    have := dot_zeros cols l
    simp only [dot] at this ⊢
    simpa using this

/-- The trend's prior of one series: one offset, one changepoint vector. -/
theorem piecewisePriors_one {b os : ℝ} (hb : p.priorScale = .scalar b) {y' : Frame String τ ℝ}
    {s : PiecewiseState ℝ τ} (hpf : piecewiseFit days suggest p y' = .ok s) {cs : List ℝ}
    (hcs : s.cps = [cs]) {θ : SiteEnv ℝ} (hθ : SingleSites cs θ) {d : Transformed (Tensor ℝ)}
    {P : PyDict (Tensor ℝ)} {ts : List Stmt} (hts : piecewisePriors os (some s) θ d P = .ok ts) :
    ∃ μ, s.offsetLoc = [μ] ∧
      (List.zipWith (fun m o => normalLP m os o) s.offsetLoc (θ "offset").data).sum
        = normalLP μ os ((θ "offset").data.headD 0) ∧
      (List.zipWith (fun (p : ℝ × ℝ) δ => laplaceLP p.1 p.2 δ) (s.priorLoc.zip s.priorScale)
        (θ "changepoint_coefficients").data).sum
        = ((θ "changepoint_coefficients").data.map (laplaceLP 0 b)).sum := by
  obtain ⟨hpl, hps⟩ := piecewiseFit_priors hpf
  unfold piecewisePriors at hts
  simp only [bind, Except.bind] at hts
  split at hts
  · cases hts
  rename_i so hso
  split at hts
  · cases hts
  rename_i sc hsc
  obtain ⟨-, hlo⟩ := sampleSite_ok hso
  obtain ⟨-, hlc⟩ := sampleSite_ok hsc
  obtain ⟨⟨o, ho⟩, hlδ⟩ := hθ
  rw [ho] at hlo ⊢
  simp only [List.length_cons, List.length_nil, List.length_map] at hlo
  match hoff : s.offsetLoc, hlo with
  | [μ], _ =>
    refine ⟨μ, rfl, by simp, ?_⟩
    rw [hpl, hps, hcs, hb] at hlc ⊢
    simp only [priorVectors, ScalarOr.toList, List.map_cons, List.map_nil, List.length_cons,
      List.length_nil, List.replicate_succ, List.replicate_zero, List.zip_cons_cons,
      List.zip_nil_right, List.flatMap_cons, List.flatMap_nil, List.append_nil, zero_add] at hlc ⊢
    match s.rates, hlc with
    | [], hlc =>
      simp only [List.zip_nil_right, List.flatMap_nil, List.zipWith_nil_left,
        List.length_nil] at hlc
      rw [List.length_eq_zero_iff.1 hlc]
      rfl
    | _ :: _, _ =>
      simp only [List.zip_cons_cons, List.zip_nil_left, List.flatMap_cons, List.flatMap_nil,
        List.append_nil]
      rw [← hlδ]
      congr 1
      induction (θ "changepoint_coefficients").data with
      | nil => rfl
      | cons a l ih => simp only [List.length_cons, List.replicate_succ, List.zip_cons_cons,
          List.zipWith_cons_cons, ih, List.map_cons]

theorem usual_unused (hk : (kind n).used cols = false) (θ : SiteEnv ℝ) (t : τ) (a : ℝ)
    (r : String → ℝ) : (kind n).value position p0 cols θ t a r = 0 := by
  cases h : kind n with
  | seasonal ss mode s => rw [h] at hk; cases hk
  | linear mode pr =>
    rw [h] at hk
    have : cols = [] := by simpa [EffectKind.used] using hk
    simp [EffectKind.value, this, combine, dot]

theorem usual_sum {p0 : ℤ} {θ : SiteEnv ℝ} {t : τ} {r : String → ℝ}
    (l : List (FittedEffect (UsualAttrs τ) (Frame String τ ℝ) (Scale ℝ) τ ℝ (AnyData ℝ) ℝ)) (a : ℝ) :
    ((l.filter fun fe => (kind fe.name).used fe.cols).map fun fe =>
        (kind fe.name).value position p0 fe.cols (θ.scope fe.name) t a r).sum
      = (l.map fun fe => (kind fe.name).value position p0 fe.cols (θ.scope fe.name) t a r).sum := by
  induction l with
  | nil => rfl
  | cons fe l ih =>
    by_cases hu : (kind fe.name).used fe.cols = true
    · simp [List.filter_cons, hu, ih]
    · rw [Bool.not_eq_true] at hu
      simp [List.filter_cons, hu, ih, usual_unused hu]

theorem usual_trend (hU : Usual position compile order days suggest p kind cfg)
    (hT : Training cfg y c X x) (hfit : uniFitData cfg y X = .ok m) :
    ∃ s cs, m.trend.st.2 = .piecewise (some s) ∧ s.cps = [cs] ∧
      (∃ y', piecewiseFit days suggest p y' = .ok s) ∧
      PointwiseTrend m.trend (SingleSites cs) (piecewiseAt days s cs) := by
  obtain ⟨yT, x0, x', hyT, htf, hx0, hx, htd, hfe, hdata, hobjs, hya⟩ := uniFitData_ok hfit
  rw [hU.trend] at htf
  obtain ⟨e, he, he'⟩ := embed_fit_ok htf
  obtain ⟨i, hi⟩ := hU.interval
  obtain ⟨r, hr⟩ := hU.range
  obtain ⟨s, cs, hs, hcs, hpw⟩ := C71_piecewise_fitted hU.squeeze hi hr (by rw [hyT, hT.flat]) he
  obtain ⟨-, s', hs', hpf⟩ := piecewise_fit_state he
  rw [hs] at hs'
  cases hs'
  refine ⟨s, cs, ?_, hcs, ⟨_, hpf⟩, ?_⟩
  · rw [he']
    show Attrs.piecewiseEmb.inj e.st.2 = _
    rw [hs]; rfl
  · rw [he']
    exact embed_pointwiseTrend hpw

/-- **C95**: the forecast at a date is the trend at that date plus, for every seasonality and every
linear effect, its coefficients times the waves at the date (counted from the first training date)
resp. the features of the date, times the trend if the effect is multiplicative. -/
theorem C95_forecast (hU : Usual position compile order days suggest p kind cfg)
    (hT : Training cfg y c X x) (hfit : uniFitData cfg y X = .ok m) :
    ∃ s cs, m.trend.st.2 = .piecewise (some s) ∧ s.cps = [cs] ∧
      ∀ (X' : Option (Frame String τ ℝ)) (x' : Frame String τ ℝ) (fh : List τ) td data
        (θ : SiteEnv ℝ) (st : MeanState ℝ),
      cfg.features (X'.getD (Frame.ofIndex fh)) = .ok x' → DatesIn x' fh →
      uniPredictData cfg m X' fh = .ok (td, data) → SingleSites cs θ →
      computeMean (m.trend.cls.call m.trend.st) td data (callsOf m.objs) θ = .ok st →
      let trend := fun t => trendAt rampEntry ((θ "offset").data.headD 0) cs
        (θ "changepoint_coefficients").data (s.time.scaled days t)
      st.mean = columnOf (fh.map fun t => trend t + (m.fitted.map fun fe =>
        (kind fe.name).value position (firstPosition position y.times) fe.cols (θ.scope fe.name) t
          (trend t) (rowAt x' t)).sum) := by
  obtain ⟨s, cs, hs, hcs, -, hpw⟩ := usual_trend hU hT hfit
  refine ⟨s, cs, hs, hcs, ?_⟩
  intro X' x' fh td data θ st hfeat hd hpd hθ hm
  obtain ⟨yT, x0, xf, hyT, htf, hx0, hx, htd, hfe, hdata, hobjs, hya⟩ := uniFitData_ok hfit
  obtain ⟨hn', htr'⟩ := C17_names hU.nodup hU.reserved hU.notTrend hfe
  have hsplit : m.trend.transform (some x') fh = .ok td ∧ transformEffects m.fitted x' fh = .ok data := by
    unfold uniPredictData at hpd
    simp only [hfeat, bind, Except.bind, pure, Except.pure] at hpd
    cases h3 : m.trend.transform (some x') fh with
    | error e => rw [h3] at hpd; cases hpd
    | ok td0 =>
      rw [h3] at hpd
      cases h4 : transformEffects m.fitted x' fh with
      | error e => rw [h4] at hpd; cases hpd
      | ok data0 => rw [h4] at hpd; cases hpd; exact ⟨rfl, rfl⟩
  have := C71_closed_form hpw (fun fe hk => (usual_fitted hU hT hfit fe (List.mem_of_mem_filter hk)).1)
    hn' htr' hd hsplit.1 hsplit.2 hobjs hθ hm
  rw [this, usual_kept hU hT hfit]
  congr 1
  refine List.map_congr_left fun t _ => ?_
  rw [usual_sum]
  rfl

/-- **C95** without `X`: the forecast is the trend plus the seasonalities, date by date, in the order
of the horizon. -/
theorem C95_no_X (hU : Usual position compile order days suggest p kind cfg)
    (hT : Training cfg y c X x) (hfit : uniFitData cfg y X = .ok m) (hid : ∀ z, cfg.features z = .ok z) :
    ∃ s cs, m.trend.st.2 = .piecewise (some s) ∧ s.cps = [cs] ∧
      ∀ (fh : List τ) td data (θ : SiteEnv ℝ) (st : MeanState ℝ), fh.Pairwise (· < ·) →
      uniPredictData cfg m none fh = .ok (td, data) → SingleSites cs θ →
      computeMean (m.trend.cls.call m.trend.st) td data (callsOf m.objs) θ = .ok st →
      let trend := fun t => trendAt rampEntry ((θ "offset").data.headD 0) cs
        (θ "changepoint_coefficients").data (s.time.scaled days t)
      st.mean = columnOf (fh.map fun t => trend t + (m.fitted.map fun fe =>
        match kind fe.name with
        | .seasonal ss mode _ => combine mode (trend t)
            (seasonAt position ss (firstPosition position y.times) (θ.scope fe.name) t)
        | .linear .. => 0).sum) := by
  obtain ⟨s, cs, hs, hcs, h⟩ := C95_forecast hU hT hfit
  refine ⟨s, cs, hs, hcs, ?_⟩
  intro fh td data θ st hfh hpd hθ hm
  have := h none (Frame.ofIndex fh) fh td data θ st (hid _) (datesIn_ofIndex hfh) hpd hθ hm
  simp only at this ⊢
  rw [this]
  congr 1
  refine List.map_congr_left fun t _ => ?_
  congr 2
  refine List.map_congr_left fun fe _ => ?_
  cases kind fe.name with
  | seasonal ss mode sc => rfl
  | linear mode pr =>
    simp only [EffectKind.value, rowAt_ofIndex]
    rw [dot_zeros]
    simp [combine]

/-- **C95**: the seasonal terms are seasonal patterns: they repeat after whole seasons, are bounded by
the sum of the sizes of the coefficients and add up to zero over whole seasons. -/
theorem C95_seasonal (hU : Usual position compile order days suggest p kind cfg)
    (hT : Training cfg y c X x) (hfit : uniFitData cfg y X = .ok m) {fe} (hfe : fe ∈ m.fitted)
    {ss : List Season} {mode : String} {ps : ℝ} (hk : kind fe.name = .seasonal ss mode ps) :
    Seasonal position ss (seasonAt position ss (firstPosition position y.times)) :=
  seasonal_of ((usual_fitted hU hT hfit fe hfe).2.2.2 ss mode ps hk) _ id
    (fun n => Or.inr ⟨n, fun _ => rfl⟩) _

/-- **C95**: the log density of the model, for every value of the parameters: the normal log prior
of the offset, the Laplace log priors of the changepoint coefficients, the log prior of every
coefficient of every effect in the model (normal around zero for a seasonality), the half-normal log
prior of the noise, and for every training row the log density of its target given the trend plus
the effects at its date. -/
theorem C95_posterior (hU : Usual position compile order days suggest p kind cfg)
    (hT : Training cfg y c X x) (hfit : uniFitData cfg y X = .ok m) {b : ℝ}
    (hb : p.priorScale = .scalar b) :
    ∃ s cs, m.trend.st.2 = .piecewise (some s) ∧ s.cps = [cs] ∧
      ∀ (lik : Likelihood) (ns scale os : ℝ) (θ : SiteEnv ℝ) (L : ℝ), SingleSites cs θ →
      logJoint lik ns scale m.yArray (m.trend.cls.call m.trend.st)
        (usualTrendPriors os m.trend.st.2) m.trendData m.data (callsOf m.objs)
        (fun n => (kind n).priors) θ = .ok L →
      ∃ μ, s.offsetLoc = [μ] ∧
      let o := (θ "offset").data.headD 0
      let δ := (θ "changepoint_coefficients").data
      let σ := siteScalar θ "noise_scale"
      let trend := fun t => trendAt rampEntry o cs δ (s.time.scaled days t)
      L = normalLP μ os o + (δ.map (laplaceLP 0 b)).sum
        + ((m.fitted.filter fun fe => (kind fe.name).used fe.cols).map fun fe =>
            ((θ.scope fe.name "coefs").data.map (kind fe.name).prior).sum).sum
        + halfNormalLP ns σ
        + (y.rows.map fun row => obsLog lik σ scale
            (trend row.time + (m.fitted.map fun fe =>
              (kind fe.name).value position (firstPosition position y.times) fe.cols
                (θ.scope fe.name) row.time (trend row.time) (rowAt x row.time)).sum)
            (row.val c)).sum := by
  obtain ⟨s, cs, hs, hcs, ⟨yp, hpf⟩, hpw⟩ := usual_trend hU hT hfit
  refine ⟨s, cs, hs, hcs, ?_⟩
  intro lik ns scale os θ L hθ hL
  obtain ⟨yT, x0, xf, hyT, htf, hx0, hx, htd, hfe, hdata, hobjs, hya⟩ := uniFitData_ok hfit
  obtain ⟨x0', hx0', hx'⟩ := hT.features
  rw [hx0] at hx0'
  cases hx0'
  rw [hx] at hx'
  cases hx'
  have hnd : y.times.Nodup := by
    unfold Frame.times
    exact (List.pairwise_map.2 hT.sorted).imp fun h => h.ne
  rw [unique_of_nodup hnd] at htd hdata
  obtain ⟨hn', htr'⟩ := C17_names hU.nodup hU.reserved hU.notTrend hfe
  have hyv : m.yArray = y.times.map fun t => rowAt y t c := by
    rw [hya]
    unfold Frame.flatVals Frame.times
    rw [hT.column, List.map_map]
    simp only [List.map_cons, List.map_nil, ← List.map_eq_flatMap]
    refine List.map_congr_left fun r hr => ?_
    simp only [Function.comp]
    rw [rowAt_of_mem hT.sorted hr]
  rw [hyv, hs] at hL
  obtain ⟨e, he, he'⟩ := embed_fit_ok (hU.trend ▸ htf)
  have hq : LogPrior m.trend (usualTrendPriors os (.piecewise (some s)))
      fun θ => (List.zipWith (fun m o => normalLP m os o) s.offsetLoc (θ "offset").data).sum
        + (List.zipWith (fun (p : ℝ × ℝ) δ => laplaceLP p.1 p.2 δ) (s.priorLoc.zip s.priorScale)
            (θ "changepoint_coefficients").data).sum := by
    rw [he']
    exact embed_logPrior (C85_piecewise_prior e os s)
  have := C85_posterior hpw
    (fun fe hk => (usual_fitted hU hT hfit fe (List.mem_of_mem_filter hk)).1) hn' htr' hT.dates htd
    hdata hobjs hq (pr := fun n => (kind n).priors)
    (fun fe hk => (usual_fitted hU hT hfit fe (List.mem_of_mem_filter hk)).2.1) hθ hL
  obtain ⟨-, ts, -, -, hts, -⟩ := C85_terms (by
    have := (transformEffects_get hn' hdata hobjs).1
    rw [this]
    intro h
    obtain ⟨a, ha, hb⟩ : ∃ a ∈ kept m.fitted, a.name = "trend" := by
      simpa [callsOf, Function.comp_def] using h
    exact htr' (List.mem_map.2 ⟨a, List.mem_of_mem_filter ha, hb⟩)) hL
  have hts' : ∃ d, piecewisePriors os (some s) θ d [] = .ok ts := by
    rw [he'] at htd
    obtain ⟨d, -, hd⟩ := embed_transform_ok htd
    rw [hd] at hts
    simp only [usualTrendPriors, Priors.embed, Transformed.proj_inj] at hts
    exact ⟨d, hts⟩
  obtain ⟨d, hts'⟩ := hts'
  obtain ⟨μ, hμ, h1, h2⟩ := piecewisePriors_one hb hpf hcs hθ hts'
  refine ⟨μ, hμ, ?_⟩
  simp only
  rw [this, h1, h2, usual_kept hU hT hfit]
  congr 1
  unfold Frame.times
  rw [List.map_map]
  congr 1
  refine List.map_congr_left fun row hrow => ?_
  simp only [Function.comp, rowAt_of_mem hT.sorted hrow]
  congr 2
  rw [usual_sum]
  rfl

/-- **C95**: what a seasonality is: seasons with different labels, the coefficients times the sine
and cosine waves. -/
theorem C95_waves {seasons : List Season} (h : (seasons.map Season.label).Nodup) (p0 : ℤ)
    (θ : SiteEnv ℝ) (t : τ) :
    seasonAt position seasons p0 θ t
      = (List.zipWith (fun w b => b * Wave.at w (position t - p0)) (waves seasons)
          (θ "coefs").data).sum := by
  have hn := waves_names h
  unfold seasonAt dot
  rw [unique_of_nodup hn, List.map_map, List.zipWith_map_left]
  congr 1
  have : ∀ (ws : List Wave) (bs : List ℝ), (∀ w ∈ ws, w ∈ waves seasons) →
      List.zipWith (fun a b => (waveAt (waves seasons) (position t - p0) ∘ Wave.name) a * b) ws bs
        = List.zipWith (fun w b => b * Wave.at w (position t - p0)) ws bs := by
    intro ws
    induction ws with
    | nil => intro bs _; rfl
    | cons w ws ih =>
      intro bs hw
      cases bs with
      | nil => rfl
      | cons b bs =>
        simp only [List.zipWith_cons_cons, Function.comp]
        rw [waveAt_mem hn (hw w (List.mem_cons_self ..)), mul_comm,
          ← ih bs fun v hv => hw v (List.mem_cons_of_mem _ hv)]
        rfl
  exact this _ _ fun _ h => h

theorem dropRepeated_distinct : ∀ {fs : List Freq},
    fs.Pairwise (fun f g => (g.k : ℝ) / g.sp ≠ f.k / f.sp) → dropRepeated fs = fs
  | [], _ => rfl
  | f :: fs, h => by
    rw [List.pairwise_cons] at h
    unfold dropRepeated
    rw [dropRepeated_distinct h.2, List.filter_eq_self.2]
    intro g hg
    simpa using h.1 g hg

theorem waves_one {label : String} {sp : ℝ} (hsp : sp ≠ 0) (n : Nat) :
    waves [⟨label, sp, n⟩] = (List.range n).flatMap fun i => Freq.waves ⟨label, sp, i + 1⟩ := by
  unfold waves freqs
  rw [dropRepeated_distinct]
  · simp [List.flatMap_map]
  · simp only [List.flatMap_cons, List.flatMap_nil, List.append_nil, List.pairwise_map]
    refine List.nodup_range.imp fun {a b} hab => ?_
    intro h
    rw [div_left_inj' hsp] at h
    have : b + 1 = a + 1 := by exact_mod_cast h
    omega

/-- **C95**: a seasonality with one season of `sp` steps and `n` terms is the Fourier series
`Σₖ aₖ sin(2πk·i/sp) + bₖ cos(2πk·i/sp)` of the number `i` of steps since the first training date. -/
theorem C95_one_season {label : String} {sp : ℝ} (hsp : sp ≠ 0) {n : Nat} (p0 : ℤ) {θ : SiteEnv ℝ}
    {a b : Nat → ℝ} (hθ : (θ "coefs").data = (List.range n).flatMap fun i => [a (i + 1), b (i + 1)])
    (t : τ) :
    seasonAt position [⟨label, sp, n⟩] p0 θ t = ∑ k ∈ Finset.Icc 1 n,
      (a k * Real.sin (2 * Real.pi * k * (position t - p0 : ℤ) / sp)
        + b k * Real.cos (2 * Real.pi * k * (position t - p0 : ℤ) / sp)) := by
  rw [C95_waves (by simp), waves_one hsp, hθ]
  have key : ∀ l : List Nat, (List.zipWith (fun w b => b * Wave.at w (position t - p0))
      (l.flatMap fun i => Freq.waves ⟨label, sp, i + 1⟩) (l.flatMap fun i => [a (i + 1), b (i + 1)])).sum
      = (l.map fun i => a (i + 1) * Real.sin (2 * Real.pi * (i + 1 : Nat) * (position t - p0 : ℤ) / sp)
        + b (i + 1) * Real.cos (2 * Real.pi * (i + 1 : Nat) * (position t - p0 : ℤ) / sp)).sum := by
    intro l
    induction l with
    | nil => rfl
    | cons i l ih =>
      simp only [List.flatMap_cons, Freq.waves, List.cons_append, List.nil_append,
        List.zipWith_cons_cons, List.sum_cons, List.map_cons]
      rw [show (List.flatMap (fun i => Freq.waves ⟨label, sp, i + 1⟩) l)
        = l.flatMap fun i => Freq.waves ⟨label, sp, i + 1⟩ from rfl] at ih
      simp only [Freq.waves] at ih
      rw [ih]
      simp only [Wave.at, if_true, Bool.false_eq_true, if_false]
      rw [show ((position t - p0 : ℤ) : ℝ) * 2 * ((i + 1 : Nat) : ℝ) * Real.pi
        = 2 * Real.pi * (i + 1 : Nat) * (position t - p0 : ℤ) by ring]
      ring
  rw [key]
  clear hθ key
  induction n with
  | zero => simp
  | succ n ih =>
    rw [Finset.sum_Icc_succ_top (by omega), ← ih, List.range_succ]
    simp

end

/-! ## Non-vacuity: three days, a linear trend, a weekly seasonality and one column -/

noncomputable section

def exSeason95 : List Season := [⟨"7", 7, 1⟩]

def exKind95 (n : String) : EffectKind :=
  if n = "weekly" then .seasonal exSeason95 "additive" 10 else .linear "multiplicative" (normalLP 0 1)

def exEffect95 (n : String) :
    EffectObj (UsualAttrs ℤ) (Frame String ℤ ℝ) (Scale ℝ) ℤ ℝ (AnyData ℝ) ℝ :=
  (exKind95 n).effect id someCompile id

def exCfg95 : UniConfig (UsualAttrs ℤ) (Scale ℝ) ℤ ℝ (AnyData ℝ) ℝ where
  compile := fun _ => .ok fun _ => true
  trend := (piecewiseClass (fun n : ℤ => (n : ℝ)) suggestLinear piecewisePredict exP85).new.embed
    Attrs.piecewiseEmb AnyData.arrayEmb
  effects := [⟨"weekly", exEffect95 "weekly", none⟩]
  default := exEffect95 "exogenous_variables_effect"
  fitFeatures := .ok
  features := .ok
  discrete := false
  unitScale := .float 1
  effectScale := .float 1
  scale := 1

theorem exUsual95 : Usual id someCompile id (fun n : ℤ => (n : ℝ)) suggestLinear exP85 exKind95 exCfg95 where
  trend := rfl
  squeeze := rfl
  interval := ⟨1, rfl⟩
  range := ⟨1, rfl⟩
  effects := by
    intro e he
    cases List.mem_singleton.1 he
    rfl
  default := rfl
  nodup := by simp [exCfg95]
  reserved := by simp [exCfg95]
  notTrend := by simp [exCfg95]

theorem exLoc95 : exX85.locTimes exY85.times = .ok exX85 := by
  unfold Frame.locTimes
  rw [if_pos (by simp [exX85, exY85, Frame.times])]
  simp [exX85, exY85, Frame.times]

theorem exTraining95 : Training exCfg95 exY85 "y" (some exX85) exX85 where
  flat := rfl
  column := rfl
  sorted := by simp [exY85]
  some := by simp [exY85]
  features := ⟨exX85, rfl, exLoc95⟩
  dates := ⟨rfl, by simp [exX85], by simp [exY85, Frame.times], by simp [exX85, exY85, Frame.times],
    by simp [exX85]⟩

def exWeekly95 : EffectObj (FourierState (List (List String × ℤ))) (Frame String ℤ ℝ) (Scale ℝ) ℤ ℝ
    (Transformed (Tensor ℝ)) ℝ :=
  { fourierNew (fourierFeatures id exSeason95) someCompile id "additive" with
    st := (⟨some [], some true⟩, ⟨some [([], 0)], none, some ⟨some ["sin_7_1", "cos_7_1"], some true⟩⟩) }

def exWaves95 (x : Frame String ℤ ℝ) : Frame String ℤ ℝ :=
  byDate ["sin_7_1", "cos_7_1"] (fun _ t => waveAt (waves exSeason95) (t - 0)) x

theorem exLib95 (x : Frame String ℤ ℝ) (h : ∀ r ∈ x.rows, r.sid = []) :
    (fourierFeatures (id : ℤ → ℤ) exSeason95).transform [([], 0)] x = .ok (exWaves95 x) := by
  unfold fourierFeatures
  simp only
  rw [if_pos (by intro r hr; simp [h r hr])]
  unfold exWaves95 byDate
  refine congrArg Except.ok ?_
  congr 1
  refine List.map_congr_left fun r hr => ?_
  rw [h r hr]
  rfl

theorem exWeeklyFit95 (sc : Scale ℝ) :
    (fourierNew (fourierFeatures id exSeason95) someCompile id "additive").fit exY85
      (some { exX85 with cols := [] }) sc = .ok exWeekly95 := by
  have h1 : (fourierFeatures (id : ℤ → ℤ) exSeason95).fit { exX85 with cols := [] } = .ok [([], 0)] := by
    unfold fourierFeatures
    simp only
    rw [if_pos (by
      intro s hs
      simp only [exSeason95, List.mem_singleton] at hs
      subst hs
      norm_num)]
    rfl
  have h2 := exLib95 { exX85 with cols := [] } (by simp [exX85])
  have h3 : fourierExpand someCompile id none (exWaves95 { exX85 with cols := [] })
      = .ok (none, exWaves95 { exX85 with cols := [] }) := rfl
  simp only [EffectObj.fit, baseFit, fourierNew, fourierClass, fourierHooks, fourierMade,
    bind, Except.bind, pure, Except.pure, h1, h2, h3, reduceCtorEq, and_false,
    false_and, if_false, defaultHooks]
  rfl

def exD95 (ts : List ℤ) : Transformed (Tensor ℝ) :=
  .data ⟨[ts.length, 2], ts.flatMap fun t => [waveAt (waves exSeason95) (t - 0) "sin_7_1",
    waveAt (waves exSeason95) (t - 0) "cos_7_1"]⟩

theorem exWeeklyTransform95 : exWeekly95.transform (some { exX85 with cols := [] }) [0, 1, 2]
    = .ok (.data (exD95 [0, 1, 2])) := by
  unfold EffectObj.transform
  rw [baseTransform_eq _ (cs := []) rfl, if_neg (by intro h; cases h), if_pos (by simp)]
  have hf : ({ exX85 with cols := [] } : Frame String ℤ ℝ).filterTimes [0, 1, 2]
      = { exX85 with cols := [] } := by
    simp [Frame.filterTimes, exX85]
  have h2 := exLib95 { exX85 with cols := [] } (by simp [exX85])
  simp only [exWeekly95, fourierNew, fourierClass, fourierHooks, fourierTags, if_true, hf, h2, bind,
    Except.bind, pure, Except.pure]
  rfl

theorem exWeeklyFuture95 : exWeekly95.transform (some (Frame.ofIndex [3, 4])) [3, 4]
    = .ok (.data (exD95 [3, 4])) := by
  unfold EffectObj.transform
  rw [baseTransform_eq _ (cs := []) rfl, if_neg (by intro h; cases h), if_pos (by simp)]
  have hf : (Frame.ofIndex [3, 4] : Frame String ℤ ℝ).filterTimes [3, 4] = Frame.ofIndex [3, 4] := by
    simp [Frame.filterTimes, Frame.ofIndex]
  have h2 := exLib95 { (Frame.ofIndex [3, 4] : Frame String ℤ ℝ) with cols := [] } (by simp [Frame.ofIndex])
  simp only [exWeekly95, fourierNew, fourierClass, fourierHooks, fourierTags, if_true, hf, h2, bind,
    Except.bind, pure, Except.pure]
  rfl

theorem exTrendFit95 : (exCfg85 "additive").trend.fit exY85 (some exX85) (.float 1) = .ok exTrend85 := by
  unfold EffectObj.fit baseFit
  rw [if_neg (by rintro ⟨h, -⟩; cases h)]
  have : (exCfg85 "additive").trend.cls.fit (exCfg85 "additive").trend.st.2 exY85 (some exX85) (.float 1)
      = .ok (some exS85) := by
    show (piecewiseFit (fun n : Int => (n : ℝ)) suggestLinear exP85 exY85).map some = _
    rw [exFit85]
    rfl
  simp only [bind, Except.bind, this]
  rfl

theorem exTrendData95 : exTrend85.transform (some exX85) [0, 1, 2] = .ok (.data ⟨[3, 1], [1, 2, 3]⟩) := by
  have hm : piecewiseTransform (fun n : Int => (n : ℝ)) true exS85 [0, 1, 2]
      = .ok ⟨[3, 1], [1, 2, 3]⟩ := by
    simp [piecewiseTransform, changepointMatrix, changepointTensor, exS85, fhTimes, unique, maskedRow,
      rampEntry, TrendTime.scaled, bind, Except.bind, pure, Except.pure]
    norm_num
  unfold EffectObj.transform
  rw [baseTransform_eq _ (cs := ["a"]) rfl, if_neg (by intro h; cases h), if_pos (by simp [exX85])]
  show (piecewiseTransform (fun n : Int => (n : ℝ)) true exS85 [0, 1, 2]).map _ = _
  rw [hm]
  rfl

def exLinear95 : EffectObj (UsualAttrs ℤ) (Frame String ℤ ℝ) (Scale ℝ) ℤ ℝ (AnyData ℝ) ℝ :=
  { exEffect95 "exogenous_variables_effect" with st := (⟨some ["a"], some true⟩, .plain) }

def exFes95 : List (FittedEffect (UsualAttrs ℤ) (Frame String ℤ ℝ) (Scale ℝ) ℤ ℝ (AnyData ℝ) ℝ) :=
  [⟨"weekly", exWeekly95.embed Attrs.fourierEmb AnyData.nestedEmb, []⟩,
   ⟨"exogenous_variables_effect", exLinear95, ["a"]⟩]

def exM95 : UniFit (UsualAttrs ℤ) (Scale ℝ) ℤ ℝ (AnyData ℝ) ℝ where
  trend := exTrend85.embed Attrs.piecewiseEmb AnyData.arrayEmb
  fitted := exFes95
  warnings := [.noMatch "weekly"]
  trendData := .data (.array ⟨[3, 1], [1, 2, 3]⟩)
  data := [("weekly", .data (.nested (exD95 [0, 1, 2]))),
    ("exogenous_variables_effect", .data (.array ⟨[3, 1], [1, 0, 5]⟩))]
  objs := [("weekly", exWeekly95.embed Attrs.fourierEmb AnyData.nestedEmb),
    ("exogenous_variables_effect", exLinear95)]
  yArray := [1, 3, 4]

theorem exFitted95 : uniFitData exCfg95 exY85 (some exX85) = .ok exM95 := by
  have ht : unique exY85.times = [0, 1, 2] := by simp [exY85, Frame.times, unique]
  have hf : exX85.filterTimes [0, 1, 2] = exX85 := by
    simp [Frame.filterTimes, exX85]
  have h1 : exCfg95.trend.fit exY85 (some exX85) exCfg95.unitScale
      = .ok (exTrend85.embed Attrs.piecewiseEmb AnyData.arrayEmb) := by
    show ((exCfg85 "additive").trend.embed _ _).fit _ _ _ = _
    rw [embed_fit]
    show ((exCfg85 "additive").trend.fit exY85 (some exX85) (.float 1)).map _ = _
    rw [exTrendFit95]
    rfl
  have h3 : (exTrend85.embed Attrs.piecewiseEmb AnyData.arrayEmb :
      EffectObj (UsualAttrs ℤ) _ _ _ _ _ _).transform (some exX85) [0, 1, 2]
      = .ok (.data (.array ⟨[3, 1], [1, 2, 3]⟩)) := by
    rw [embed_transform, exTrendData95]
    rfl
  have hw : (exEffect95 "weekly").clone.fit exY85 (some { exX85 with cols := [] }) (.float 1)
      = .ok (exWeekly95.embed Attrs.fourierEmb AnyData.nestedEmb) := by
    show ((fourierNew (fourierFeatures id exSeason95) someCompile id "additive").embed _ _).fit _ _ _ = _
    rw [embed_fit, exWeeklyFit95]
    rfl
  have hl : (exEffect95 "exogenous_variables_effect").clone.fit exY85
      (some { exX85 with cols := ["a"] }) (.float 1) = .ok exLinear95 := rfl
  have h4 : fitEffects exCfg95.compile exCfg95.effects exCfg95.default (some exX85) exY85
      exCfg95.effectScale = .ok (exFes95, [.noMatch "weekly"]) := by
    rw [fitEffects_ok]
    refine ⟨[⟨"weekly", exWeekly95.embed Attrs.fourierEmb AnyData.nestedEmb, []⟩],
      .cons ⟨rfl, rfl, hw⟩ .nil, rfl, .inr ⟨exLinear95, ?_, ?_, ?_⟩⟩
    · simp [remainingColumns, exX85]
    · simp only [List.flatMap_cons, List.flatMap_nil, List.append_nil]
      rw [show remainingColumns exX85.cols [] = ["a"] by simp [remainingColumns, exX85]]
      exact hl
    · simp [remainingColumns, exX85, exFes95, defaultEffectName]
  have h5 : transformEffects exFes95 exX85 [0, 1, 2]
      = .ok [("weekly", .data (.nested (exD95 [0, 1, 2]))),
        ("exogenous_variables_effect", .data (.array ⟨[3, 1], [1, 0, 5]⟩))] := by
    have hs : exX85.select ["a"] = .ok exX85 := by
      simp [Frame.select, exX85]
    have hs0 : exX85.select [] = .ok { exX85 with cols := [] } := by
      simp [Frame.select, exX85]
    have hw : (exWeekly95.embed Attrs.fourierEmb AnyData.nestedEmb :
      EffectObj (UsualAttrs ℤ) _ _ _ _ _ _).transform (some { exX85 with cols := [] }) [0, 1, 2]
        = .ok (.data (.nested (exD95 [0, 1, 2]))) := by
      rw [embed_transform, exWeeklyTransform95]
      rfl
    have hl : exLinear95.transform (some exX85) [0, 1, 2]
        = .ok (.data (.array ⟨[3, 1], [1, 0, 5]⟩)) := by
      unfold EffectObj.transform
      rw [baseTransform_eq _ (cs := ["a"]) rfl, if_neg (by intro h; cases h),
        if_pos (by simp [exX85])]
      show (Except.map _ (Frame.seriesToTensorOrArray { exX85.filterTimes [0, 1, 2] with cols := ["a"] })).map _ = _
      rw [hf]
      rfl
    have hk1 : (exWeekly95.embed Attrs.fourierEmb AnyData.nestedEmb :
      EffectObj (UsualAttrs ℤ) _ _ _ _ _ _).skip = .ok false := rfl
    have hk2 : exLinear95.skip = .ok false := rfl
    simp [transformEffects, exFes95, transformStep, bind, Except.bind, hk1, hk2, hs, hs0, hw, hl, pure,
      Except.pure, PyDict.set]
  have h6 : nonSkipped exFes95 = .ok exM95.objs := rfl
  have h2' : exCfg95.fitFeatures ((some exX85).getD (Frame.ofIndex exY85.times)) = .ok exX85 := rfl
  have hd' : (if exCfg95.discrete = true then exY85.mapVals fun _ v => v / exCfg95.scale else exY85)
    = exY85 := rfl
  unfold uniFitData
  simp only [bind, Except.bind, hd', h1, h2', exLoc95, ht, h3, h4, h5, h6, pure, Except.pure]
  rfl

def exθ95 : SiteEnv ℝ := fun s =>
  if s = "weekly/coefs" then ⟨[2], [3, -1]⟩ else exθ85 s

example : SingleSites [0] exθ95 := ⟨⟨1, rfl⟩, rfl⟩

example : ∃ L, logJoint .normal (1 / 2) 1 exM95.yArray (exM95.trend.cls.call exM95.trend.st)
    (usualTrendPriors (1 / 10) exM95.trend.st.2) exM95.trendData exM95.data (callsOf exM95.objs)
    (fun n => (exKind95 n).priors) exθ95 = .ok L := ⟨_, rfl⟩

/-! Without columns: two days ahead with `X=None`. -/

def exTrend95 : EffectObj (Option (PiecewiseState ℝ Int)) (Frame String Int ℝ) (Scale ℝ) Int ℝ
    (Tensor ℝ) ℝ :=
  { exTrend85 with st := (⟨some [], some true⟩, some exS85) }

def exN95 : UniFit (UsualAttrs ℤ) (Scale ℝ) ℤ ℝ (AnyData ℝ) ℝ where
  trend := exTrend95.embed Attrs.piecewiseEmb AnyData.arrayEmb
  fitted := [⟨"weekly", exWeekly95.embed Attrs.fourierEmb AnyData.nestedEmb, []⟩]
  warnings := [.noMatch "weekly"]
  trendData := .data (.array ⟨[3, 1], [1, 2, 3]⟩)
  data := [("weekly", .data (.nested (exD95 [0, 1, 2])))]
  objs := [("weekly", exWeekly95.embed Attrs.fourierEmb AnyData.nestedEmb)]
  yArray := [1, 3, 4]

theorem exTrendFitN95 : (exCfg85 "additive").trend.fit exY85 (some { exX85 with cols := [] }) (.float 1)
    = .ok exTrend95 := by
  unfold EffectObj.fit baseFit
  rw [if_neg (by rintro ⟨h, -⟩; cases h)]
  have : (exCfg85 "additive").trend.cls.fit (exCfg85 "additive").trend.st.2 exY85
      (some { exX85 with cols := [] }) (.float 1) = .ok (some exS85) := by
    show (piecewiseFit (fun n : Int => (n : ℝ)) suggestLinear exP85 exY85).map some = _
    rw [exFit85]
    rfl
  simp only [bind, Except.bind, this]
  rfl

theorem exTrendDataN95 (x : Frame String ℤ ℝ) {ts : List ℤ} {v : Tensor ℝ}
    (hm : piecewiseTransform (fun n : Int => (n : ℝ)) true exS85 ts = .ok v) :
    exTrend95.transform (some x) ts = .ok (.data v) := by
  unfold EffectObj.transform
  rw [baseTransform_eq _ (cs := []) rfl, if_neg (by intro h; cases h), if_pos (by simp)]
  show (piecewiseTransform (fun n : Int => (n : ℝ)) true exS85 ts).map _ = _
  rw [hm]
  rfl

/-- Another effect for columns claimed by no effect. -/
def exDefault95 (d : EffectObj (UsualAttrs ℤ) (Frame String ℤ ℝ) (Scale ℝ) ℤ ℝ (AnyData ℝ) ℝ) :
    UniConfig (UsualAttrs ℤ) (Scale ℝ) ℤ ℝ (AnyData ℝ) ℝ :=
  { exCfg95 with default := d }

theorem exFitted95d (d : EffectObj (UsualAttrs ℤ) (Frame String ℤ ℝ) (Scale ℝ) ℤ ℝ (AnyData ℝ) ℝ) :
    uniFitData (exDefault95 d) exY85 (some { exX85 with cols := [] }) = .ok exN95 := by
  have ht : unique exY85.times = [0, 1, 2] := by simp [exY85, Frame.times, unique]
  have h1 : (exDefault95 d).trend.fit exY85 (some { exX85 with cols := [] }) (exDefault95 d).unitScale
      = .ok (exTrend95.embed Attrs.piecewiseEmb AnyData.arrayEmb) := by
    show ((exCfg85 "additive").trend.embed _ _).fit _ _ _ = _
    rw [embed_fit]
    show ((exCfg85 "additive").trend.fit exY85 (some { exX85 with cols := [] }) (.float 1)).map _ = _
    rw [exTrendFitN95]
    rfl
  have h3 : (exTrend95.embed Attrs.piecewiseEmb AnyData.arrayEmb :
      EffectObj (UsualAttrs ℤ) _ _ _ _ _ _).transform (some { exX85 with cols := [] }) [0, 1, 2]
      = .ok (.data (.array ⟨[3, 1], [1, 2, 3]⟩)) := by
    rw [embed_transform, exTrendDataN95 (v := ⟨[3, 1], [1, 2, 3]⟩)]
    · rfl
    · simp [piecewiseTransform, changepointMatrix, changepointTensor, exS85, fhTimes, unique, maskedRow,
        rampEntry, TrendTime.scaled, bind, Except.bind, pure, Except.pure]
      norm_num
  have hw : (exEffect95 "weekly").clone.fit exY85 (some { exX85 with cols := [] }) (.float 1)
      = .ok (exWeekly95.embed Attrs.fourierEmb AnyData.nestedEmb) := by
    show ((fourierNew (fourierFeatures id exSeason95) someCompile id "additive").embed _ _).fit _ _ _ = _
    rw [embed_fit, exWeeklyFit95]
    rfl
  have h4 : fitEffects (exDefault95 d).compile (exDefault95 d).effects (exDefault95 d).default
      (some { exX85 with cols := [] }) exY85 (exDefault95 d).effectScale
      = .ok (exN95.fitted, [.noMatch "weekly"]) := by
    rw [fitEffects_ok]
    exact ⟨_, .cons ⟨rfl, rfl, hw⟩ .nil, rfl, .inl ⟨by simp [remainingColumns], rfl⟩⟩
  have h5 : transformEffects exN95.fitted { exX85 with cols := [] } [0, 1, 2] = .ok exN95.data := by
    have hs0 : ({ exX85 with cols := [] } : Frame String ℤ ℝ).select []
        = .ok { exX85 with cols := [] } := by
      simp [Frame.select, exX85]
    have hw : (exWeekly95.embed Attrs.fourierEmb AnyData.nestedEmb :
      EffectObj (UsualAttrs ℤ) _ _ _ _ _ _).transform (some { exX85 with cols := [] }) [0, 1, 2]
        = .ok (.data (.nested (exD95 [0, 1, 2]))) := by
      rw [embed_transform, exWeeklyTransform95]
      rfl
    have hk1 : (exWeekly95.embed Attrs.fourierEmb AnyData.nestedEmb :
      EffectObj (UsualAttrs ℤ) _ _ _ _ _ _).skip = .ok false := rfl
    simp [transformEffects, exN95, transformStep, bind, Except.bind, hk1, hs0, hw, pure,
      Except.pure, PyDict.set]
  have h6 : nonSkipped exN95.fitted = .ok exN95.objs := rfl
  have h2 : ({ exX85 with cols := [] } : Frame String ℤ ℝ).locTimes exY85.times
      = .ok { exX85 with cols := [] } := by
    unfold Frame.locTimes
    rw [if_pos (by simp [exX85, exY85, Frame.times])]
    simp [exX85, exY85, Frame.times]
  have h2' : (exDefault95 d).fitFeatures ((some { exX85 with cols := [] }).getD (Frame.ofIndex exY85.times))
      = .ok { exX85 with cols := [] } := rfl
  have hd' : (if (exDefault95 d).discrete = true then exY85.mapVals fun _ v => v / (exDefault95 d).scale else exY85)
    = exY85 := rfl
  unfold uniFitData
  simp only [bind, Except.bind, hd', h1, h2', h2, ht, h3, h4, h5, h6, pure, Except.pure]
  rfl

theorem exFitted95n : uniFitData exCfg95 exY85 (some { exX85 with cols := [] }) = .ok exN95 :=
  exFitted95d exCfg95.default

example : ∃ st, uniPredictData exCfg95 exN95 none [3, 4]
      = .ok (.data (.array ⟨[2, 1], [4, 5]⟩), [("weekly", .data (.nested (exD95 [3, 4])))]) ∧
    computeMean (exN95.trend.cls.call exN95.trend.st) (.data (.array ⟨[2, 1], [4, 5]⟩))
      [("weekly", .data (.nested (exD95 [3, 4])))] (callsOf exN95.objs) exθ95 = .ok st := by
  refine ⟨_, ?_, rfl⟩
  have h1 : exN95.trend.transform (some (Frame.ofIndex [3, 4])) [3, 4]
      = .ok (.data (.array ⟨[2, 1], [4, 5]⟩)) := by
    show (exTrend95.embed _ _).transform _ _ = _
    rw [embed_transform, exTrendDataN95 (v := ⟨[2, 1], [4, 5]⟩)]
    · rfl
    · simp [piecewiseTransform, changepointMatrix, changepointTensor, exS85, fhTimes, unique, maskedRow,
        rampEntry, TrendTime.scaled, bind, Except.bind, pure, Except.pure]
      norm_num
  have h2 : transformEffects exN95.fitted (Frame.ofIndex [3, 4]) [3, 4]
      = .ok [("weekly", .data (.nested (exD95 [3, 4])))] := by
    have hs0 : (Frame.ofIndex [3, 4] : Frame String ℤ ℝ).select [] = .ok (Frame.ofIndex [3, 4]) := by
      simp [Frame.select, Frame.ofIndex]
    have hw : (exWeekly95.embed Attrs.fourierEmb AnyData.nestedEmb :
      EffectObj (UsualAttrs ℤ) _ _ _ _ _ _).transform (some (Frame.ofIndex [3, 4])) [3, 4]
        = .ok (.data (.nested (exD95 [3, 4]))) := by
      rw [embed_transform, exWeeklyFuture95]
      rfl
    have hk1 : (exWeekly95.embed Attrs.fourierEmb AnyData.nestedEmb :
      EffectObj (UsualAttrs ℤ) _ _ _ _ _ _).skip = .ok false := rfl
    simp [transformEffects, exN95, transformStep, bind, Except.bind, hk1, hs0, hw, pure,
      Except.pure, PyDict.set]
  unfold uniPredictData
  simp only [Option.getD_none, bind, Except.bind,
    show exCfg95.features (Frame.ofIndex [3, 4]) = .ok (Frame.ofIndex [3, 4]) from rfl, h1, h2, pure,
    Except.pure]

end

end PV
