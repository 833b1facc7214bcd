import Verif.Lemmas.Mix
import Verif.Props.Defined
import Verif.Props.TrendFitted

/-!
# C94: for a given noise level the additive model has one best fit
-/

set_option linter.unusedSectionVars false

namespace PV
open Tensor

/-- `θ''` is the convex combination of `θ` and `θ'` with weights `a` and `a'`, site by site. -/
def Between (a a' : ℝ) (θ θ' θ'' : SiteEnv ℝ) : Prop :=
  ∀ n, (θ'' n).shape = (θ n).shape ∧
    (θ'' n).data = List.zipWith (fun x x' => a * x + a' * x') (θ n).data (θ' n).data

/-- Every changepoint has a training time between itself and the next one; the changepoints after
the first are at least one step into the history. -/
def Covered (ts cs : List ℝ) : Prop :=
  ∀ (i : Nat) (c : ℝ), cs[i]? = some c → ∃ t ∈ ts, c ≤ t ∧
    ∀ (j : Nat) (c' : ℝ), i < j → cs[j]? = some c' → t < c' ∧ 1 ≤ c'

theorem Covered.tail {ts cs : List ℝ} {c : ℝ} (h : Covered ts (c :: cs)) : Covered ts cs := by
  intro i c' hi
  obtain ⟨t, ht, h1, h2⟩ := h (i + 1) c' (by simpa using hi)
  refine ⟨t, ht, h1, fun j c'' hj hc => h2 (j + 1) c'' (by omega) (by simpa using hc)⟩

theorem rampEntry_before {t c : ℝ} (h : t < c) (h1 : 1 ≤ c) : rampEntry t c = 0 := by
  unfold rampEntry
  rw [if_neg (not_le.2 h), max_eq_right]
  linarith

theorem rampEntry_after {t c : ℝ} (h : c ≤ t) : 0 < rampEntry t c := by
  unfold rampEntry
  rw [if_pos h]
  exact lt_max_of_lt_left (by linarith)

/-- The values of the trend at the training times determine the coefficients. -/
theorem coefs_determined {ts : List ℝ} : ∀ {cs l l' : List ℝ}, Covered ts cs →
    l.length = cs.length → l'.length = cs.length →
    (∀ t ∈ ts, (List.zipWith (fun c b => b * rampEntry t c) cs l).sum
      = (List.zipWith (fun c b => b * rampEntry t c) cs l').sum) → l = l' := by
  intro cs
  induction cs with
  | nil =>
    intro l l' _ h h' _
    rw [List.length_eq_zero_iff.1 h, List.length_eq_zero_iff.1 h']
  | cons c cs ih =>
    intro l l' hc h h' heq
    match l, l', h, h' with
    | x :: l, x' :: l', h, h' =>
      obtain ⟨t, ht, hct, hlater⟩ := hc 0 c rfl
      have hzero : ∀ l : List ℝ, (List.zipWith (fun c b => b * rampEntry t c) cs l).sum = 0 := by
        intro l
        apply List.sum_eq_zero
        intro v hv
        obtain ⟨i, hi, rfl⟩ := List.mem_iff_getElem.1 hv
        have hi' : i < cs.length := by
          rw [List.length_zipWith] at hi
          omega
        obtain ⟨h1, h2⟩ := hlater (i + 1) cs[i] (by omega) (by simp [hi'])
        rw [List.getElem_zipWith, rampEntry_before h1 h2, mul_zero]
      have h0 := heq t ht
      simp only [List.zipWith_cons_cons, List.sum_cons, hzero, add_zero] at h0
      have hx : x = x' := mul_right_cancel₀ (rampEntry_after hct).ne' h0
      subst hx
      have := ih (l := l) (l' := l') hc.tail (by simpa using h) (by simpa using h') fun t ht => by
        have := heq t ht
        simpa only [List.zipWith_cons_cons, List.sum_cons, add_right_inj] using this
      rw [this]

/-- Changepoints at multiples of an interval of at least one step inside a history of `N` equally
spaced dates are covered. -/
theorem covered_of_grid {ts cs : List ℝ} {v limit : ℝ} {N : Nat} (hcs : AreChangepoints v limit cs)
    (hv : 1 ≤ v) (hl : limit ≤ (N : ℝ) - 1) (ht : ∀ k : Nat, k < N → (k : ℝ) ∈ ts) :
    Covered ts cs := by
  intro i c hi
  have hc := List.mem_of_getElem? hi
  obtain ⟨k, rfl, hk⟩ := (hcs.mem c).1 hc
  have hv0 : (0 : ℝ) ≤ k * v := by positivity
  refine ⟨(⌈(k : ℝ) * v⌉₊ : ℝ), ht _ ?_, Nat.le_ceil _, ?_⟩
  · have h1 := Nat.ceil_lt_add_one hv0
    have : (⌈(k : ℝ) * v⌉₊ : ℝ) < N := by linarith
    exact_mod_cast this
  · intro j c' hij hj
    obtain ⟨k', rfl, -⟩ := (hcs.mem c').1 (List.mem_of_getElem? hj)
    have hlt : (k : ℝ) * v < k' * v := by
      obtain ⟨hi1, hi2⟩ := List.getElem?_eq_some_iff.1 hi
      obtain ⟨hj1, hj2⟩ := List.getElem?_eq_some_iff.1 hj
      have := List.pairwise_iff_getElem.1 hcs.sorted i j hi1 hj1 hij
      rwa [hi2, hj2] at this
    have hkk : k < k' := by
      have := lt_of_mul_lt_mul_right hlt (by linarith)
      exact_mod_cast this
    have hk1 : (k : ℝ) + 1 ≤ k' := by exact_mod_cast hkk
    have h1 := Nat.ceil_lt_add_one hv0
    constructor
    · nlinarith
    · have : (0 : ℝ) ≤ k := by positivity
      nlinarith

section
variable {τ : Type} [LinearOrder τ] {days : τ → ℝ}
  {suggest : List ℝ → Tensor ℝ → PyM (List ℝ × List ℝ)}
  {p : PiecewiseParams ℝ τ} (hsq : p.squeeze = true) {i r b : ℝ} (hi : p.interval = .scalar i)
  (hr : p.range = .scalar r) (hb : p.priorScale = .scalar b)
  {cfg : UniConfig (Option (PiecewiseState ℝ τ)) (Scale ℝ) τ ℝ (Tensor ℝ) ℝ}
  (htrend : cfg.trend = (piecewiseClass days suggest piecewisePredict p).new)
  (heff : ∀ e ∈ cfg.effects, e.effect.cls = linearClass "additive")
  (hdef : cfg.default.cls = linearClass "additive")
  (hn : (cfg.effects.map EffectSpec.name).Nodup)
  (hres : "exogenous_variables_effect" ∉ cfg.effects.map EffectSpec.name)
  (hnt : "trend" ∉ cfg.effects.map EffectSpec.name)
  {y : Frame String τ ℝ} {c : String} (hyl : y.nlevels = 1) (hyc : y.cols = [c])
  (hys : y.rows.Pairwise fun a b => a.time < b.time)
  {X : Option (Frame String τ ℝ)} {x0 x : Frame String τ ℝ}
  (hx0 : cfg.fitFeatures (X.getD (Frame.ofIndex y.times)) = .ok x0)
  (hx : x0.locTimes y.times = .ok x) (hdates : DatesIn x y.times)
  {m : UniFit (Option (PiecewiseState ℝ τ)) (Scale ℝ) τ ℝ (Tensor ℝ) ℝ}
  (hfit : uniFitData cfg y X = .ok m)

/-- The log density of a fitted forecaster as a function of the parameters. -/
noncomputable def densityOf (m : UniFit (Option (PiecewiseState ℝ τ)) (Scale ℝ) τ ℝ (Tensor ℝ) ℝ)
    (ns scale os : ℝ) (prior : String → ℝ → ℝ) (θ : SiteEnv ℝ) : PyM ℝ :=
  logJoint .normal ns scale m.yArray (m.trend.cls.call m.trend.st)
    (piecewisePriors os m.trend.st.2) m.trendData m.data (callsOf m.objs)
    (fun n => linearPriors (prior n)) θ

theorem Between.sizes {S Y Sc V D K : Type} {a a' : ℝ} {θ θ' θ'' : SiteEnv ℝ} {cs : List ℝ}
    {l : List (FittedEffect S Y Sc τ V D K)} (h : Between a a' θ θ' θ'')
    (h1 : ProphetSizes cs l θ) (h2 : ProphetSizes cs l θ') : ProphetSizes cs l θ'' := by
  refine ⟨⟨?_, ?_⟩, ?_, ?_⟩
  · obtain ⟨o, ho⟩ := h1.trend.1
    obtain ⟨o', ho'⟩ := h2.trend.1
    obtain ⟨e1, e2⟩ := h "offset"
    rw [ho, ho'] at e2
    rw [ho] at e1
    refine ⟨a * o + a' * o', ?_⟩
    generalize θ'' "offset" = u at e1 e2
    obtain ⟨sh, da⟩ := u
    simp only at e1 e2
    rw [e1, e2]
    rfl
  · rw [(h _).2, List.length_zipWith, h1.trend.2, h2.trend.2, Nat.min_self]
  · rw [(h _).2, List.length_zipWith, h1.noise, h2.noise]; rfl
  · intro fe hfe
    rw [(h _).2, List.length_zipWith, h1.coefs fe hfe, h2.coefs fe hfe, Nat.min_self]

include hsq hi hr hb htrend heff hdef hn hres hnt hyl hyc hys hx0 hx hdates hfit

/-- What a convex combination gains: the density at `θ''` and the parts of the gain. -/
theorem mix_parts : ∃ s cs, m.trend.st.2 = some s ∧ s.cps = [cs] ∧
    ∀ (ns scale os : ℝ) (prior : String → ℝ → ℝ), 0 ≤ b →
    ∀ (a a' : ℝ), 0 ≤ a → 0 ≤ a' → a + a' = 1 →
    (∀ n x x', a * prior n x + a' * prior n x' ≤ prior n (a * x + a' * x')) →
    ∀ (θ θ' θ'' : SiteEnv ℝ) (L L' L'' : ℝ),
    ProphetSizes cs (kept m.fitted) θ → ProphetSizes cs (kept m.fitted) θ' →
    (θ "noise_scale").data = (θ' "noise_scale").data → Between a a' θ θ' θ'' →
    densityOf m ns scale os prior θ = .ok L → densityOf m ns scale os prior θ' = .ok L' →
    densityOf m ns scale os prior θ'' = .ok L'' →
    a * L + a' * L' ≤ L'' ∧
    (L'' ≤ a * L + a' * L' →
      (a * a' * ((θ "offset").data.headD 0 - (θ' "offset").data.headD 0) ^ 2 / (2 * os ^ 2) ≤ 0) ∧
      (∀ fe ∈ kept m.fitted,
        ((mixList a a' (θ (fe.name ++ "/coefs")).data (θ' (fe.name ++ "/coefs")).data).map
          (prior fe.name)).sum ≤ a * ((θ (fe.name ++ "/coefs")).data.map (prior fe.name)).sum
            + a' * ((θ' (fe.name ++ "/coefs")).data.map (prior fe.name)).sum) ∧
      ∀ row ∈ y.rows,
        let mean := fun θ : SiteEnv ℝ => trendAt rampEntry ((θ "offset").data.headD 0) cs
            (θ "changepoint_coefficients").data (s.time.scaled days row.time)
          + ((kept m.fitted).map fun fe =>
              dot (fe.cols.map (rowAt x row.time)) (θ (fe.name ++ "/coefs")).data).sum
        a * a' * (mean θ - mean θ') ^ 2 / (2 * siteScalar θ "noise_scale" ^ 2) ≤ 0) := by
  obtain ⟨s, cs, hs, hcs, hF⟩ := C85_prophet (mode := fun _ => "additive") hsq hi hr hb htrend heff
    hdef hn hres hnt hyl hyc hys hx0 hx hdates hfit
  refine ⟨s, cs, hs, hcs, ?_⟩
  intro ns scale os prior hb0 a a' ha ha' haa hpr θ θ' θ'' L L' L'' hz hz' hσ hmix hL hL' hL''
  have hz'' := hmix.sizes hz hz'
  obtain ⟨μ, hμ, rfl⟩ := hF .normal ns scale os prior θ L hz.trend hL
  obtain ⟨μ', hμ', rfl⟩ := hF .normal ns scale os prior θ' L' hz'.trend hL'
  obtain ⟨μ'', hμ'', rfl⟩ := hF .normal ns scale os prior θ'' L'' hz''.trend hL''
  obtain rfl : μ = μ' := by rw [hμ] at hμ'; simpa using hμ'
  obtain rfl : μ = μ'' := by rw [hμ] at hμ''; simpa using hμ''
  -- the parameters of the combination
  obtain ⟨o, ho⟩ := hz.trend.1
  obtain ⟨o', ho'⟩ := hz'.trend.1
  have hoo : (θ'' "offset").data.headD 0 = a * o + a' * o' := by
    rw [(hmix _).2, ho, ho']
    rfl
  have hn1 : siteScalar θ' "noise_scale" = siteScalar θ "noise_scale" := by
    unfold siteScalar
    rw [hσ]
  have hn2 : siteScalar θ'' "noise_scale" = siteScalar θ "noise_scale" := by
    unfold siteScalar
    rw [(hmix _).2, ← hσ]
    exact congrArg (fun l => l.headD 0) (mixList_self haa _)
  have hδ : (θ'' "changepoint_coefficients").data = mixList a a'
      (θ "changepoint_coefficients").data (θ' "changepoint_coefficients").data := (hmix _).2
  have hβ : ∀ n, (θ'' (n ++ "/coefs")).data
      = mixList a a' (θ (n ++ "/coefs")).data (θ' (n ++ "/coefs")).data := fun n => (hmix _).2
  have hlδ : (θ "changepoint_coefficients").data.length
      = (θ' "changepoint_coefficients").data.length := by rw [hz.trend.2, hz'.trend.2]
  have hlβ : ∀ fe ∈ kept m.fitted, (θ (fe.name ++ "/coefs")).data.length
      = (θ' (fe.name ++ "/coefs")).data.length := fun fe h => by rw [hz.coefs fe h, hz'.coefs fe h]
  simp only [if_true, ho, ho', hoo, hn1, hn2, hδ, hβ, List.headD_cons, obsLog]
  -- the parts
  have g1 := normalLP_mix haa μ os o o'
  have g1' : 0 ≤ a * a' * (o - o') ^ 2 / (2 * os ^ 2) := by positivity
  have g2 := sum_mix_le (f := laplaceLP 0 b) (laplaceLP_mix ha ha' haa hb0) hlδ
  obtain ⟨g3, g3'⟩ := sum_gap (a := a) (a' := a') (l := kept m.fitted)
    (f := fun fe => ((θ (fe.name ++ "/coefs")).data.map (prior fe.name)).sum)
    (g := fun fe => ((θ' (fe.name ++ "/coefs")).data.map (prior fe.name)).sum)
    (h := fun fe => ((mixList a a' (θ (fe.name ++ "/coefs")).data
      (θ' (fe.name ++ "/coefs")).data).map (prior fe.name)).sum)
    (fun fe h => sum_mix_le (hpr fe.name) (hlβ fe h))
  have hmean : ∀ t : τ, trendAt rampEntry (a * o + a' * o') cs
        (mixList a a' (θ "changepoint_coefficients").data (θ' "changepoint_coefficients").data)
        (s.time.scaled days t)
      + ((kept m.fitted).map fun fe => dot (fe.cols.map (rowAt x t))
          (mixList a a' (θ (fe.name ++ "/coefs")).data (θ' (fe.name ++ "/coefs")).data)).sum
      = a * (trendAt rampEntry o cs (θ "changepoint_coefficients").data (s.time.scaled days t)
          + ((kept m.fitted).map fun fe => dot (fe.cols.map (rowAt x t))
            (θ (fe.name ++ "/coefs")).data).sum)
        + a' * (trendAt rampEntry o' cs (θ' "changepoint_coefficients").data (s.time.scaled days t)
          + ((kept m.fitted).map fun fe => dot (fe.cols.map (rowAt x t))
            (θ' (fe.name ++ "/coefs")).data).sum) := by
    intro t
    have e1 : ((kept m.fitted).map fun fe => dot (fe.cols.map (rowAt x t))
          (mixList a a' (θ (fe.name ++ "/coefs")).data (θ' (fe.name ++ "/coefs")).data))
        = (kept m.fitted).map fun fe => a * dot (fe.cols.map (rowAt x t)) (θ (fe.name ++ "/coefs")).data
          + a' * dot (fe.cols.map (rowAt x t)) (θ' (fe.name ++ "/coefs")).data :=
      List.map_congr_left fun fe h => dot_mix (hlβ fe h)
    rw [e1, List.sum_map_add, List.sum_map_mul_left, List.sum_map_mul_left]
    unfold trendAt
    rw [zip_mix hlδ]
    ring
  simp only [hmean]
  obtain ⟨g4, g4'⟩ := sum_gap (a := a) (a' := a') (l := y.rows)
    (f := fun row => normalLP (trendAt rampEntry o cs (θ "changepoint_coefficients").data
        (s.time.scaled days row.time) + ((kept m.fitted).map fun fe =>
          dot (fe.cols.map (rowAt x row.time)) (θ (fe.name ++ "/coefs")).data).sum)
      (siteScalar θ "noise_scale") (row.val c))
    (g := fun row => normalLP (trendAt rampEntry o' cs (θ' "changepoint_coefficients").data
        (s.time.scaled days row.time) + ((kept m.fitted).map fun fe =>
          dot (fe.cols.map (rowAt x row.time)) (θ' (fe.name ++ "/coefs")).data).sum)
      (siteScalar θ "noise_scale") (row.val c))
    (h := fun row => normalLP (a * (trendAt rampEntry o cs (θ "changepoint_coefficients").data
          (s.time.scaled days row.time) + ((kept m.fitted).map fun fe =>
            dot (fe.cols.map (rowAt x row.time)) (θ (fe.name ++ "/coefs")).data).sum)
        + a' * (trendAt rampEntry o' cs (θ' "changepoint_coefficients").data
          (s.time.scaled days row.time) + ((kept m.fitted).map fun fe =>
            dot (fe.cols.map (rowAt x row.time)) (θ' (fe.name ++ "/coefs")).data).sum))
      (siteScalar θ "noise_scale") (row.val c))
    (by
      intro row _
      rw [normalLP_mix_loc haa]
      have : 0 ≤ a * a' * ((trendAt rampEntry o cs (θ "changepoint_coefficients").data
          (s.time.scaled days row.time) + ((kept m.fitted).map fun fe =>
            dot (fe.cols.map (rowAt x row.time)) (θ (fe.name ++ "/coefs")).data).sum)
        - (trendAt rampEntry o' cs (θ' "changepoint_coefficients").data
          (s.time.scaled days row.time) + ((kept m.fitted).map fun fe =>
            dot (fe.cols.map (rowAt x row.time)) (θ' (fe.name ++ "/coefs")).data).sum)) ^ 2
          / (2 * siteScalar θ "noise_scale" ^ 2) := by positivity
      linarith)
  have g5 : a * halfNormalLP ns (siteScalar θ "noise_scale")
      + a' * halfNormalLP ns (siteScalar θ "noise_scale")
      = halfNormalLP ns (siteScalar θ "noise_scale") := by rw [← add_mul, haa, one_mul]
  refine ⟨by linarith, fun hle => ⟨by linarith, g3' (by linarith), fun row hrow => ?_⟩⟩
  have := g4' (by linarith) row hrow
  simp only [normalLP_mix_loc haa] at this
  linarith

/-- **C94**: for a given noise level the log posterior of the additive model with a piecewise linear
trend, linear effects with log-concave priors and normal likelihood is a concave function of the
other parameters. -/
theorem C94_concave : ∃ s cs, m.trend.st.2 = some s ∧ s.cps = [cs] ∧
    ∀ (ns scale os : ℝ) (prior : String → ℝ → ℝ), 0 ≤ b →
    (∀ n, ConcaveOn ℝ Set.univ (prior n)) →
    ∀ (a a' : ℝ), 0 ≤ a → 0 ≤ a' → a + a' = 1 → ∀ (θ θ' θ'' : SiteEnv ℝ) (L L' L'' : ℝ),
    ProphetSizes cs (kept m.fitted) θ → ProphetSizes cs (kept m.fitted) θ' →
    (θ "noise_scale").data = (θ' "noise_scale").data → Between a a' θ θ' θ'' →
    densityOf m ns scale os prior θ = .ok L → densityOf m ns scale os prior θ' = .ok L' →
    densityOf m ns scale os prior θ'' = .ok L'' → a * L + a' * L' ≤ L'' := by
  obtain ⟨s, cs, hs, hcs, hF⟩ := mix_parts hsq hi hr hb htrend heff hdef hn hres hnt hyl hyc hys hx0
    hx hdates hfit
  refine ⟨s, cs, hs, hcs, ?_⟩
  intro ns scale os prior hb0 hpr a a' ha ha' haa θ θ' θ'' L L' L'' hz hz' hσ hmix hL hL' hL''
  exact (hF ns scale os prior hb0 a a' ha ha' haa (fun n x x' => by
    simpa only [smul_eq_mul] using (hpr n).2 (Set.mem_univ x) (Set.mem_univ x') ha ha' haa)
    θ θ' θ'' L L' L'' hz hz' hσ hmix hL hL' hL'').1

/-- **C94**: for a given noise level there is at most one best fit.  If the priors of the
coefficients are strictly log-concave (the default normal prior is) and `θ` has the largest
density, then every `θ'` with the same density has the same offset, the same coefficients of all
effects and the same trend at all training dates; and the same changepoint coefficients, if there is
a training date between any two changepoints. -/
theorem C94_unique : ∃ s cs, m.trend.st.2 = some s ∧ s.cps = [cs] ∧
    (s.offsetLoc.length = 1 → s.rates ≠ [] →
    ∀ (ns scale os : ℝ) (prior : String → ℝ → ℝ), 0 ≤ b → os ≠ 0 →
    (∀ n, StrictConcaveOn ℝ Set.univ (prior n)) →
    ∀ (θ θ' : SiteEnv ℝ) (L : ℝ), siteScalar θ "noise_scale" ≠ 0 →
    ProphetSizes cs (kept m.fitted) θ → ProphetSizes cs (kept m.fitted) θ' →
    (θ "noise_scale").data = (θ' "noise_scale").data →
    densityOf m ns scale os prior θ = .ok L → densityOf m ns scale os prior θ' = .ok L →
    (∀ θ'' L'', ProphetSizes cs (kept m.fitted) θ'' →
      (θ'' "noise_scale").data = (θ "noise_scale").data →
      densityOf m ns scale os prior θ'' = .ok L'' → L'' ≤ L) →
    (θ "offset" = θ' "offset") ∧
    (∀ fe ∈ kept m.fitted, (θ (fe.name ++ "/coefs")).data = (θ' (fe.name ++ "/coefs")).data) ∧
    (∀ row ∈ y.rows, trendAt rampEntry ((θ "offset").data.headD 0) cs
        (θ "changepoint_coefficients").data (s.time.scaled days row.time)
      = trendAt rampEntry ((θ' "offset").data.headD 0) cs
        (θ' "changepoint_coefficients").data (s.time.scaled days row.time)) ∧
    (Covered (y.times.map (s.time.scaled days)) cs →
      (θ "changepoint_coefficients").data = (θ' "changepoint_coefficients").data)) := by
  obtain ⟨s, cs, hs, hcs, hF⟩ := mix_parts hsq hi hr hb htrend heff hdef hn hres hnt hyl hyc hys hx0
    hx hdates hfit
  obtain ⟨s', cs', hs', hcs', hD⟩ := C85_defined (mode := fun _ => "additive") hsq hi hr hb htrend
    heff hdef hn hres hnt hyl hyc hys hx0 hx hdates hfit
  rw [hs] at hs'
  cases hs'
  rw [hcs] at hcs'
  cases hcs'
  refine ⟨s, cs, hs, hcs, ?_⟩
  intro hoff hrates ns scale os prior hb0 hos hpr θ θ' L hσ0 hz hz' hσ hL hL' hbest
  let θ'' : SiteEnv ℝ := fun n => ⟨(θ n).shape,
    List.zipWith (fun x x' => 1 / 2 * x + 1 / 2 * x') (θ n).data (θ' n).data⟩
  have hmix : Between (1 / 2) (1 / 2) θ θ' θ'' := fun n => ⟨rfl, rfl⟩
  have hz'' := hmix.sizes hz hz'
  obtain ⟨L'', hL''⟩ := hD hoff hrates .normal ns scale os prior θ'' hz''
  have hle := hbest θ'' L'' hz'' (by
    rw [(hmix _).2, ← hσ]
    exact mixList_self (by norm_num) _) hL''
  have hstrict : ∀ n x x', x ≠ x' →
      1 / 2 * prior n x + 1 / 2 * prior n x' < prior n (1 / 2 * x + 1 / 2 * x') := by
    intro n x x' hne
    simpa only [smul_eq_mul] using (hpr n).2 (Set.mem_univ x) (Set.mem_univ x') hne
      (by norm_num : (0 : ℝ) < 1 / 2) (by norm_num : (0 : ℝ) < 1 / 2) (by norm_num)
  have hconc : ∀ n x x',
      1 / 2 * prior n x + 1 / 2 * prior n x' ≤ prior n (1 / 2 * x + 1 / 2 * x') := by
    intro n x x'
    by_cases hne : x = x'
    · subst hne
      rw [← add_mul, ← add_mul]
      norm_num
    · exact (hstrict n x x' hne).le
  obtain ⟨-, hgain⟩ := hF ns scale os prior hb0 (1 / 2) (1 / 2) (by norm_num) (by norm_num)
    (by norm_num) hconc θ θ' θ'' L L L'' hz hz' hσ hmix hL hL' hL''
  obtain ⟨e1, e2, e3⟩ := hgain (by linarith)
  have sq0 : ∀ u v w : ℝ, w ≠ 0 → 1 / 2 * (1 / 2) * (u - v) ^ 2 / (2 * w ^ 2) ≤ 0 → u = v := by
    intro u v w hw h
    by_contra hne
    have h1 : 0 < (u - v) ^ 2 := by
      have := sub_ne_zero.2 hne
      positivity
    have h2 : 0 < w ^ 2 := by positivity
    have : 0 < 1 / 2 * (1 / 2) * (u - v) ^ 2 / (2 * w ^ 2) := by positivity
    linarith
  obtain ⟨o, ho⟩ := hz.trend.1
  obtain ⟨o', ho'⟩ := hz'.trend.1
  have hoo : o = o' := by
    rw [ho, ho'] at e1
    exact sq0 o o' os hos e1
  have hβ : ∀ fe ∈ kept m.fitted,
      (θ (fe.name ++ "/coefs")).data = (θ' (fe.name ++ "/coefs")).data := fun fe h =>
    sum_mix_eq (hconc fe.name) (hstrict fe.name) (by rw [hz.coefs fe h, hz'.coefs fe h]) (e2 fe h)
  have htr : ∀ row ∈ y.rows, trendAt rampEntry ((θ "offset").data.headD 0) cs
        (θ "changepoint_coefficients").data (s.time.scaled days row.time)
      = trendAt rampEntry ((θ' "offset").data.headD 0) cs
        (θ' "changepoint_coefficients").data (s.time.scaled days row.time) := by
    intro row hrow
    have h := sq0 _ _ _ hσ0 (e3 row hrow)
    have h2 : ((kept m.fitted).map fun fe =>
          dot (fe.cols.map (rowAt x row.time)) (θ (fe.name ++ "/coefs")).data)
        = (kept m.fitted).map fun fe =>
          dot (fe.cols.map (rowAt x row.time)) (θ' (fe.name ++ "/coefs")).data :=
      List.map_congr_left fun fe h => by rw [hβ fe h]
    simp only [h2] at h
    exact add_right_cancel h
  refine ⟨by rw [ho, ho', hoo], hβ, htr, fun hcov => ?_⟩
  refine coefs_determined hcov hz.trend.2 hz'.trend.2 ?_
  intro t ht
  obtain ⟨t', ht', rfl⟩ := List.mem_map.1 ht
  unfold Frame.times at ht'
  obtain ⟨row, hrow, rfl⟩ := List.mem_map.1 ht'
  have := htr row hrow
  unfold trendAt at this
  rw [ho, ho', hoo] at this
  exact add_left_cancel this

end

/-- The default prior is strictly log-concave. -/
theorem normalLP_strictConcave (m : ℝ) {s : ℝ} (hs : s ≠ 0) :
    StrictConcaveOn ℝ Set.univ (normalLP m s) := by
  refine ⟨convex_univ, fun x _ x' _ hne a a' ha ha' haa => ?_⟩
  simp only [smul_eq_mul]
  rw [normalLP_mix haa]
  have h1 : 0 < (x - x') ^ 2 := by
    have := sub_ne_zero.2 hne
    positivity
  have : 0 < a * a' * (x - x') ^ 2 / (2 * s ^ 2) := by positivity
  linarith

/-- What a fitted piecewise linear trend over one series provides: one offset and one rate. -/
theorem single_offset {τ : Type} [LinearOrder τ] {days : τ → ℝ} {p : PiecewiseParams ℝ τ}
    {y : Frame String τ ℝ} {s : PiecewiseState ℝ τ}
    (h : piecewiseFit days suggestLinear p y = .ok s)
    (hd : ∀ y', detrended p y = .ok y' → y'.nlevels = 1) :
    s.offsetLoc.length = 1 ∧ s.rates ≠ [] := by
  obtain ⟨tt, cps, y', ya, q, -, -, h3, h4, h5, rfl⟩ := piecewiseFit_inv h
  have hl := hd y' h3
  have hsh : ya.shape.headD 0 = 1 := by
    unfold Frame.seriesToTensor at h4
    rw [if_pos hl] at h4
    split at h4
    · cases h4
    · cases h4
      rfl
  unfold suggestLinear at h5
  split at h5
  · split at h5
    · cases h5
    · cases h5
      have h0 : ∀ j, (column ya j).length = 1 := fun j => by simp only [column, List.length_map, List.length_range, hsh]
      refine ⟨by simp [h0], fun h => ?_⟩
      have := congrArg List.length h
      simp [h0] at this
  · cases h5

/-! ## Non-vacuity -/

example : ∃ m, uniFitData (exCfg85 "additive") exY85 (some exX85) = .ok m := ⟨_, exUni85 _⟩

example : (exCfg85 "additive").default.cls = linearClass "additive" := rfl

example : exX85.locTimes exY85.times = .ok exX85 ∧ DatesIn exX85 exY85.times := by
  refine ⟨?_, rfl, ?_, ?_, ?_, ?_⟩
  · unfold Frame.locTimes
    rw [if_pos (by simp [exX85, exY85, Frame.times])]
    simp [exX85, exY85, Frame.times]
  all_goals simp [exX85, exY85, Frame.times]

example : ProphetSizes [0] (exM85 "additive").fitted exθ85 :=
  ⟨⟨⟨1, rfl⟩, rfl⟩, rfl, by
    intro fe h
    simp only [exM85, List.mem_singleton] at h
    subst h
    rfl⟩

example : Covered [0, 1, 2] [0] := by
  intro i c hi
  obtain ⟨rfl, rfl⟩ : i = 0 ∧ c = 0 := by
    rw [List.getElem?_singleton] at hi
    split at hi
    · exact ⟨by assumption, (Option.some.inj hi).symm⟩
    · cases hi
  refine ⟨0, by simp, le_rfl, fun j c' hj hc => ?_⟩
  rw [List.getElem?_singleton, if_neg (by omega)] at hc
  cases hc

end PV
