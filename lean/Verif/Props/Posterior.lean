import Verif.Props.Pointwise
import Verif.Spec.Density

/-!
# C85: inference works on the posterior density of the documented model
-/

set_option linter.unusedSectionVars false

namespace PV
open Tensor

theorem logDensity_append (a b : List Stmt) : logDensity (a ++ b) = logDensity a + logDensity b := by
  simp [logDensity]

theorem logDensity_scope (p : String) (l : List Stmt) :
    logDensity (l.map (Stmt.scope p)) = logDensity l := by
  simp only [logDensity, List.map_map]
  rfl

theorem sampleSite_ok {θ : SiteEnv ℝ} {n : String} {ds : List (ℝ → ℝ)} {s : Stmt}
    (h : sampleSite θ n ds = .ok s) :
    s = ⟨n, ds, (θ n).data⟩ ∧ (θ n).data.length = ds.length := by
  unfold sampleSite at h
  split at h
  · rename_i hl
    cases h
    exact ⟨rfl, hl⟩
  · cases h

theorem observeSite_ok {n : String} {ds : List (ℝ → ℝ)} {vs : List ℝ} {s : Stmt}
    (h : observeSite n ds vs = .ok s) : s = ⟨n, ds, vs⟩ ∧ vs.length = ds.length := by
  unfold observeSite at h
  split at h
  · rename_i hl
    cases h
    exact ⟨rfl, hl⟩
  · cases h

section
variable {D : Type}

theorem foldlM_runStep {θ : SiteEnv ℝ} {data : PyDict D} {pr : String → Priors D} :
    ∀ (effects : PyDict (EffectCall D ℝ)) (st : MeanState ℝ) (acc : List Stmt)
      (r : MeanState ℝ × List Stmt), "trend" ∉ effects.map Prod.fst →
    effects.foldlM (runStep θ data pr) (st, acc) = .ok r →
    effects.foldlM (meanStep θ data) st = .ok r.1 ∧
    ∃ sss : List (List Stmt), logDensity r.2 = logDensity acc + (sss.map logDensity).sum ∧
      List.Forall₂ (fun (e : String × EffectCall D ℝ) ss => ∃ d p, data.get? e.1 = some d ∧
        p.get? "trend" = st.predicted.get? "trend" ∧
        pr e.1 (θ.scope e.1) d p = .ok ss) effects sss := by
  intro effects
  induction effects with
  | nil =>
    intro st acc r _ h
    cases h
    exact ⟨rfl, [], by simp, .nil⟩
  | cons e l ih =>
    intro st acc r htr h
    rw [List.map_cons, List.mem_cons, not_or] at htr
    rw [List.foldlM_cons] at h ⊢
    simp only [bind, Except.bind] at h ⊢
    cases h1 : runStep θ data pr (st, acc) e with
    | error err => rw [h1] at h; cases h
    | ok q =>
      rw [h1] at h
      simp only at h
      unfold runStep at h1
      simp only [bind, Except.bind] at h1
      cases hd : data.getItem e.1 with
      | error err => rw [hd] at h1; cases h1
      | ok d =>
        rw [hd] at h1
        simp only at h1
        cases hs : pr e.1 (θ.scope e.1) d st.predicted with
        | error err => rw [hs] at h1; cases h1
        | ok ss =>
          rw [hs] at h1
          simp only at h1
          cases hm : meanStep θ data st e with
          | error err => rw [hm] at h1; cases h1
          | ok m =>
            rw [hm] at h1
            cases h1
            obtain ⟨h2, sss, h3, h4⟩ := ih m _ r htr.2 h
            refine ⟨h2, ss :: sss, ?_, .cons ?_ (h4.imp ?_)⟩
            · rw [h3, logDensity_append, logDensity_scope, List.map_cons, List.sum_cons, add_assoc]
            · exact ⟨d, _, PyDict.getItem_ok.1 hd, rfl, hs⟩
            · rintro e' ss' ⟨d', p', h5, h6, h7⟩
              refine ⟨d', p', h5, ?_, h7⟩
              rw [h6]
              unfold meanStep at hm
              simp only [bind, Except.bind, hd] at hm
              split at hm
              · cases hm
              split at hm
              · cases hm
              cases hm
              simp only [PyDict.get?_set]
              rw [if_neg (Ne.symm htr.1)]

theorem obsStmts_ok {lik : Likelihood} {ns scale : ℝ} {y : List ℝ} {mean : Tensor ℝ}
    {θ : SiteEnv ℝ} {ss : List Stmt} (h : obsStmts lik ns scale y mean θ = .ok ss) :
    y.length = mean.data.length ∧ logDensity ss = halfNormalLP ns (siteScalar θ "noise_scale") +
      (List.zipWith (obsLog lik (siteScalar θ "noise_scale") scale) mean.data y).sum := by
  unfold obsStmts at h
  simp only [bind, Except.bind] at h
  cases hn : sampleSite θ "noise_scale" [halfNormalLP ns] with
  | error err => rw [hn] at h; cases h
  | ok n =>
    rw [hn] at h
    simp only at h
    cases ho : observeSite "obs" ((univariateObs lik (siteScalar θ "noise_scale") scale mean).map
        ObsDist.logProb) y with
    | error err => rw [ho] at h; cases h
    | ok o =>
      rw [ho] at h
      cases h
      obtain ⟨rfl, hl1⟩ := sampleSite_ok hn
      obtain ⟨rfl, hl2⟩ := observeSite_ok ho
      have hy : y.length = mean.data.length := by
        rw [hl2]
        cases lik <;> simp [univariateObs]
      refine ⟨hy, ?_⟩
      simp only [logDensity, List.map_cons, List.map_nil, List.sum_cons, List.sum_nil, add_zero]
      congr 1
      · match hθ : (θ "noise_scale").data, hl1 with
        | [a], _ => simp [Stmt.logProb, siteScalar, hθ]
      · unfold Stmt.logProb
        congr 1
        cases lik with
        | normal =>
          simp only [univariateObs, List.map_map, List.zipWith_map_left]
          rfl
        | negbinomial =>
          simp only [univariateObs, List.map_map, List.zipWith_map_left]
          rfl
        | gamma =>
          simp only [univariateObs, List.map_map, List.zipWith_map_left]
          congr 1
          funext m v
          simp only [Function.comp, ObsDist.logProb, gammaReparametrized, obsLog]
          congr 1
          ring

theorem logJoint_split {lik : Likelihood} {ns scale : ℝ} {y : List ℝ} {trend : EffectCall D ℝ}
    {tp : Priors D} {td : D} {data : PyDict D} {effects : PyDict (EffectCall D ℝ)}
    {pr : String → Priors D} {θ : SiteEnv ℝ} {L : ℝ}
    (h : logJoint lik ns scale y trend tp td data effects pr θ = .ok L) :
    ∃ r, runMean trend tp td data effects pr θ = .ok r ∧ y.length = r.1.mean.data.length ∧
      L = logDensity r.2 + (halfNormalLP ns (siteScalar θ "noise_scale") +
        (List.zipWith (obsLog lik (siteScalar θ "noise_scale") scale) r.1.mean.data y).sum) := by
  unfold logJoint at h
  cases hs : modelStmts lik ns scale y trend tp td data effects pr θ with
  | error err => rw [hs] at h; cases h
  | ok all =>
    rw [hs] at h
    cases h
    unfold modelStmts at hs
    simp only [bind, Except.bind] at hs
    cases hr : runMean trend tp td data effects pr θ with
    | error err => rw [hr] at hs; cases hs
    | ok r =>
      rw [hr] at hs
      simp only at hs
      cases ho : obsStmts lik ns scale y r.1.mean θ with
      | error err => rw [ho] at hs; cases hs
      | ok os =>
        rw [ho] at hs
        cases hs
        obtain ⟨h4, h5⟩ := obsStmts_ok ho
        exact ⟨r, rfl, h4, by rw [logDensity_append, h5]⟩

theorem runMean_ok {trend : EffectCall D ℝ} {tp : Priors D} {td : D} {data : PyDict D}
    {effects : PyDict (EffectCall D ℝ)} {pr : String → Priors D} {θ : SiteEnv ℝ}
    (htr : "trend" ∉ effects.map Prod.fst) {r : MeanState ℝ × List Stmt}
    (hr : runMean trend tp td data effects pr θ = .ok r) :
    ∃ ts sss, computeMean trend td data effects θ = .ok r.1 ∧ tp θ td [] = .ok ts ∧
      List.Forall₂ (fun (e : String × EffectCall D ℝ) ss => ∃ d p, data.get? e.1 = some d ∧
        (∃ t, trend θ td [] = .ok t ∧ p.get? "trend" = some t) ∧
        pr e.1 (θ.scope e.1) d p = .ok ss) effects sss ∧
      logDensity r.2 = logDensity ts + (sss.map logDensity).sum := by
  unfold runMean at hr
  simp only [bind, Except.bind] at hr
  cases ht : tp θ td [] with
  | error err => rw [ht] at hr; cases hr
  | ok ts =>
    rw [ht] at hr
    simp only at hr
    cases hv : trend θ td [] with
    | error err => rw [hv] at hr; cases hr
    | ok t =>
      rw [hv] at hr
      obtain ⟨h1, sss, h2, h3⟩ := foldlM_runStep effects _ _ r htr hr
      refine ⟨ts, sss, ?_, rfl, h3.imp ?_, h2⟩
      · unfold computeMean
        simp only [bind, Except.bind, hv]
        exact h1
      · rintro e ss ⟨d, p, h6, h7, h8⟩
        exact ⟨d, p, h6, ⟨t, rfl, by rw [h7]; rfl⟩, h8⟩

/-- **C85**: the log density of a run is the sum of the log priors of the trend, of every effect and
of the noise, and of one term per observation, at the mean computed by the model. -/
theorem C85_terms {lik : Likelihood} {ns scale : ℝ} {y : List ℝ} {trend : EffectCall D ℝ}
    {tp : Priors D} {td : D} {data : PyDict D} {effects : PyDict (EffectCall D ℝ)}
    {pr : String → Priors D} {θ : SiteEnv ℝ} {L : ℝ} (htr : "trend" ∉ effects.map Prod.fst)
    (h : logJoint lik ns scale y trend tp td data effects pr θ = .ok L) :
    ∃ st ts sss, computeMean trend td data effects θ = .ok st ∧ tp θ td [] = .ok ts ∧
      List.Forall₂ (fun (e : String × EffectCall D ℝ) ss => ∃ d p, data.get? e.1 = some d ∧
        (∃ t, trend θ td [] = .ok t ∧ p.get? "trend" = some t) ∧
        pr e.1 (θ.scope e.1) d p = .ok ss) effects sss ∧
      y.length = st.mean.data.length ∧
      L = logDensity ts + (sss.map logDensity).sum + halfNormalLP ns (siteScalar θ "noise_scale") +
        (List.zipWith (obsLog lik (siteScalar θ "noise_scale") scale) st.mean.data y).sum := by
  obtain ⟨r, hr, hl, rfl⟩ := logJoint_split h
  obtain ⟨ts, sss, h1, h2, h3, h4⟩ := runMean_ok htr hr
  exact ⟨r.1, ts, sss, h1, h2, h3, hl, by rw [h4]; ring⟩

end

/-! ## Date by date -/

section
variable {S Y Sc τ V D : Type} [LinearOrder τ] [Zero V]

theorem transformEffects_get {fitted : List (FittedEffect S Y Sc τ V D ℝ)}
    (hn : (fitted.map FittedEffect.name).Nodup) {x : Frame String τ V} {fh : List τ}
    {data : PyDict (Transformed D)} (h2 : transformEffects fitted x fh = .ok data)
    {objs : PyDict (EffectObj S Y Sc τ V D ℝ)} (ho : nonSkipped fitted = .ok objs) :
    objs = (kept fitted).map (fun e => (e.name, e.effect)) ∧
    ∀ fe ∈ kept fitted, ∃ xc d, x.select fe.cols = .ok xc ∧
      fe.effect.transform (some xc) fh = .ok d ∧ data.get? fe.name = some d := by
  unfold transformEffects at h2
  obtain ⟨new, hnew, hf, hsk⟩ := foldlM_transformStep hn (by simp [PyDict.keys]) h2
  have hkn : ((kept fitted).map FittedEffect.name).Nodup :=
    hn.sublist (List.filter_sublist.map _)
  constructor
  · unfold nonSkipped at ho
    rw [nonSkipped_ok hsk] at ho
    simp only [bind, Except.bind, pure, Except.pure, Except.ok.injEq] at ho
    rw [← ho, PyDict.ofList_of_nodup]
    simpa [Function.comp_def] using hkn
  · intro fe hfe
    rw [List.nil_append] at hnew
    have hkeys : data.keys = (kept fitted).map FittedEffect.name := by
      rw [hnew]
      unfold PyDict.keys
      generalize kept fitted = l at hf
      clear hnew
      induction hf with
      | nil => rfl
      | cons h1 _ ih => simp [h1.1, ih]
    obtain ⟨i, hi, rfl⟩ := List.getElem_of_mem hfe
    obtain ⟨hl, hg⟩ := List.forall₂_iff_get.1 hf
    obtain ⟨hp1, xc, hxc, htr'⟩ := hg i hi (by omega)
    simp only [List.get_eq_getElem] at hp1 htr' hxc
    refine ⟨xc, _, hxc, htr', ?_⟩
    apply PyDict.get?_of_mem (by rw [hkeys]; exact hkn)
    rw [← hp1, hnew]
    exact List.getElem_mem _

/-- **C85**: with trend and effects computed date by date, the log density is the log posterior: log
priors of trend, effects and noise, plus, for every training date, the log density of its
observation given the trend and the effects at that date. -/
theorem C85_posterior {trend : EffectObj S Y Sc τ V D ℝ} {Ok : SiteEnv ℝ → Prop}
    {g : SiteEnv ℝ → τ → ℝ} (ht : PointwiseTrend trend Ok g)
    {fitted : List (FittedEffect S Y Sc τ V D ℝ)}
    {f : FittedEffect S Y Sc τ V D ℝ → SiteEnv ℝ → τ → ℝ → (String → V) → ℝ}
    (hf : ∀ fe ∈ kept fitted, PointwiseEffect fe.effect (f fe))
    (hn : (fitted.map FittedEffect.name).Nodup) (htr : "trend" ∉ fitted.map FittedEffect.name)
    {x : Frame String τ V} {fh : List τ} (hx : DatesIn x fh) {td : Transformed D}
    {data : PyDict (Transformed D)} (h1 : trend.transform (some x) fh = .ok td)
    (h2 : transformEffects fitted x fh = .ok data)
    {objs : PyDict (EffectObj S Y Sc τ V D ℝ)} (ho : nonSkipped fitted = .ok objs)
    {tp : Priors (Transformed D)} {q : SiteEnv ℝ → ℝ} (hq : LogPrior trend tp q)
    {pr : String → Priors (Transformed D)} {qe : FittedEffect S Y Sc τ V D ℝ → SiteEnv ℝ → ℝ}
    (hqe : ∀ fe ∈ kept fitted, LogPrior fe.effect (pr fe.name) (qe fe))
    {lik : Likelihood} {ns scale : ℝ} {y : τ → ℝ} {θ : SiteEnv ℝ} (hθ : Ok θ) {L : ℝ}
    (h : logJoint lik ns scale (fh.map y) (trend.cls.call trend.st) tp td data (callsOf objs) pr θ
      = .ok L) :
    L = q θ + ((kept fitted).map fun fe => qe fe (θ.scope fe.name)).sum
      + halfNormalLP ns (siteScalar θ "noise_scale")
      + (fh.map fun t => obsLog lik (siteScalar θ "noise_scale") scale
          (g θ t + ((kept fitted).map fun fe => f fe (θ.scope fe.name) t (g θ t) (rowAt x t)).sum)
          (y t)).sum := by
  obtain ⟨hobj, hdat⟩ := transformEffects_get hn h2 ho
  have hfst : (callsOf objs).map Prod.fst = (kept fitted).map FittedEffect.name := by
    rw [hobj]
    simp [callsOf, Function.comp_def]
  obtain ⟨st, ts, sss, hm, hts, hss, -, rfl⟩ := C85_terms (by
    rw [hfst]
    exact fun h => htr ((List.filter_sublist.map _).subset h)) h
  rw [C71_closed_form ht hf hn htr hx h1 h2 ho hθ hm, hq θ x fh td [] ts h1 hts]
  congr 2
  · congr 1
    congr 1
    have hss' : List.Forall₂ (fun (fe : FittedEffect S Y Sc τ V D ℝ) ss =>
        logDensity ss = qe fe (θ.scope fe.name)) (kept fitted) sss := by
      have hcalls : callsOf objs
          = (kept fitted).map fun fe => (fe.name, fe.effect.cls.call fe.effect.st) := by
        rw [hobj]
        simp [callsOf, Function.comp_def]
      rw [hcalls, List.forall₂_map_left_iff] at hss
      rw [List.forall₂_iff_get] at hss ⊢
      refine ⟨hss.1, fun i hi hi' => ?_⟩
      obtain ⟨d, p, hd, -, hp⟩ := hss.2 i hi hi'
      have hk := List.getElem_mem hi
      obtain ⟨xc, d', hxc, hdt, hd'⟩ := hdat _ hk
      simp only [List.get_eq_getElem] at hd hp ⊢
      rw [hd'] at hd
      cases hd
      exact hqe _ hk _ _ _ _ _ _ hdt hp
    clear hss h
    generalize kept fitted = l at hss'
    induction hss' with
    | nil => rfl
    | cons h1 _ ih => rw [List.map_cons, List.map_cons, h1, ih]
  · simp only [columnOf, List.zipWith_map]
    congr 1
    simp [List.zipWith_self]

end

/-! ## The log priors of the built-in trends and effects -/

section
variable {S Y Sc τ V D : Type} [DecidableEq τ]

theorem sampleSite_replicate {θ : SiteEnv ℝ} {n : String} {k : Nat} {prior : ℝ → ℝ} {s : Stmt}
    (h : sampleSite θ n (List.replicate k prior) = .ok s) :
    s.logProb = ((θ n).data.map prior).sum := by
  obtain ⟨rfl, hl⟩ := sampleSite_ok h
  simp only [List.length_replicate] at hl
  subst hl
  unfold Stmt.logProb
  simp only
  congr 1
  induction (θ n).data with
  | nil => rfl
  | cons a l ih => simp [List.replicate_succ, ih]

theorem sampleSite_one {θ : SiteEnv ℝ} {n : String} {prior : ℝ → ℝ} {s : Stmt}
    (h : sampleSite θ n [prior] = .ok s) : s.logProb = prior (siteScalar θ n) := by
  obtain ⟨rfl, hl⟩ := sampleSite_ok h
  match hθ : (θ n).data, hl with
  | [a], _ => simp [Stmt.logProb, siteScalar, hθ]

/-- **C85**, linear effect (also inside the Fourier seasonality): the prior, once per coefficient. -/
theorem C85_linear_prior (e : EffectObj S Y Sc τ V (Tensor ℝ) ℝ) (prior : ℝ → ℝ) :
    LogPrior e (linearPriors prior) fun θ => ((θ "coefs").data.map prior).sum := by
  intro θ x fh d p ss _ h
  unfold linearPriors at h
  simp only [bind, Except.bind] at h
  cases hd : d.array with
  | error err => rw [hd] at h; cases h
  | ok a =>
    rw [hd] at h
    simp only at h
    cases hs : sampleSite θ "coefs" (List.replicate (a.shape.getLastD 0) prior) with
    | error err => rw [hs] at h; cases h
    | ok c =>
      rw [hs] at h
      cases h
      simp [logDensity, sampleSite_replicate hs]

/-- **C85**, log effect. -/
theorem C85_log_prior (e : EffectObj S Y Sc τ V (Tensor ℝ) ℝ) (scalePrior ratePrior : ℝ → ℝ) :
    LogPrior e (logPriors scalePrior ratePrior) fun θ =>
      scalePrior (siteScalar θ "log_scale") + ratePrior (siteScalar θ "log_rate") := by
  intro θ x fh d p ss _ h
  unfold logPriors at h
  simp only [bind, Except.bind] at h
  split at h
  · cases h
  rename_i a ha
  split at h
  · cases h
  rename_i b hb
  cases h
  simp [logDensity, sampleSite_one ha, sampleSite_one hb]

/-- **C85**, Hill effect. -/
theorem C85_hill_prior (e : EffectObj S Y Sc τ V (Tensor ℝ) ℝ)
    (halfMaxPrior slopePrior maxEffectPrior : ℝ → ℝ) :
    LogPrior e (hillPriors halfMaxPrior slopePrior maxEffectPrior) fun θ =>
      halfMaxPrior (siteScalar θ "half_max") + slopePrior (siteScalar θ "slope")
        + maxEffectPrior (siteScalar θ "max_effect") := by
  intro θ x fh d p ss _ h
  unfold hillPriors at h
  simp only [bind, Except.bind] at h
  split at h
  · cases h
  rename_i a ha
  split at h
  · cases h
  rename_i b hb
  split at h
  · cases h
  rename_i c hc
  cases h
  simp [logDensity, sampleSite_one ha, sampleSite_one hb, sampleSite_one hc, add_assoc]

/-- **C85**, piecewise linear trend: offsets around their suggested values, and coefficients around
their prior locations. -/
theorem C85_piecewise_prior (e : EffectObj S Y Sc τ V (Tensor ℝ) ℝ) {τ' : Type} (offsetScale : ℝ)
    (s : PiecewiseState ℝ τ') :
    LogPrior e (piecewisePriors offsetScale (some s)) fun θ =>
      (List.zipWith (fun m o => normalLP m offsetScale o) s.offsetLoc (θ "offset").data).sum
        + (List.zipWith (fun (p : ℝ × ℝ) δ => laplaceLP p.1 p.2 δ) (s.priorLoc.zip s.priorScale)
            (θ "changepoint_coefficients").data).sum := by
  intro θ x fh d p ss _ h
  unfold piecewisePriors at h
  simp only [bind, Except.bind] at h
  split at h
  · cases h
  rename_i a ha
  split at h
  · cases h
  rename_i b hb
  cases h
  obtain ⟨rfl, -⟩ := sampleSite_ok ha
  obtain ⟨rfl, -⟩ := sampleSite_ok hb
  simp only [logDensity, List.map_cons, List.map_nil, List.sum_cons, List.sum_nil, add_zero,
    Stmt.logProb, List.zipWith_map_left]
  congr 2
  rw [List.zip, ← List.map_zipWith (f := fun p : ℝ × ℝ => laplaceLP p.1 p.2) (g := Prod.mk),
    List.zipWith_map_left]

/-- **C85**, lift experiments: the terms of the inner effect, and for every observed lift the normal
log density of the observation around the effect at that entry (`C30` says which entries these
are). -/
theorem C85_lift_terms {l : Lift S Y τ V D ℝ} {inner : Priors (Transformed D)} {θ : SiteEnv ℝ}
    {data : LiftData D ℝ} {p : PyDict (Tensor ℝ)} {ss : List Stmt}
    (h : l.priors inner θ data p = .ok ss) :
    ∃ ss0 v pairs, inner θ (.data data.inner) p = .ok ss0 ∧ l.predict θ data p = .ok (v, pairs) ∧
      logDensity ss = logDensity ss0
        + (pairs.map fun q => normalLP q.1 l.priorScale q.2).sum := by
  unfold Lift.priors at h
  simp only [bind, Except.bind] at h
  split at h
  · cases h
  rename_i ss0 h0
  split at h
  · cases h
  rename_i r hr
  split at h
  · cases h
  rename_i o ho
  cases h
  obtain ⟨rfl, -⟩ := observeSite_ok ho
  refine ⟨ss0, r.1, r.2, h0, hr, ?_⟩
  rw [logDensity_append]
  congr 1
  simp only [logDensity, List.map_cons, List.map_nil, List.sum_cons, List.sum_nil, add_zero,
    Stmt.logProb, List.zipWith_map, List.zipWith_self]

/-- **C85**, flat trend: the Gamma distribution of `C39`. -/
theorem C85_flat_prior (e : EffectObj S Y Sc τ V (Tensor ℝ) ℝ) (scale loc : ℝ) :
    LogPrior e (flatPriors scale (some loc)) fun θ =>
      gammaLP (loc ^ 2 / scale ^ 2) (loc / scale ^ 2) (siteScalar θ "trend_flat_coefficient") := by
  intro θ x fh d p ss _ h
  unfold flatPriors at h
  simp only [bind, Except.bind] at h
  split at h
  · cases h
  rename_i a ha
  cases h
  simp only [logDensity, List.map_cons, List.map_nil, List.sum_cons, List.sum_nil, add_zero,
    sampleSite_one ha, flatPrior]
  congr 1
  ring

/-- **C85**, piecewise logistic trend: one capacity per series, and the terms of the linear trend. -/
theorem C85_logistic_prior (e : EffectObj S Y Sc τ V (Tensor ℝ) ℝ) {τ' : Type}
    (capacityPrior : ℝ → ℝ) (offsetScale : ℝ) (s : PiecewiseState ℝ τ') :
    LogPrior e (logisticPriors capacityPrior offsetScale (some s)) fun θ =>
      ((θ "capacity").data.map capacityPrior).sum +
      ((List.zipWith (fun m o => normalLP m offsetScale o) s.offsetLoc (θ "offset").data).sum
        + (List.zipWith (fun (p : ℝ × ℝ) δ => laplaceLP p.1 p.2 δ) (s.priorLoc.zip s.priorScale)
            (θ "changepoint_coefficients").data).sum) := by
  intro θ x fh d p ss hx h
  unfold logisticPriors at h
  simp only [bind, Except.bind] at h
  split at h
  · cases h
  rename_i a ha
  split at h
  · cases h
  rename_i b hb
  cases h
  rw [show logDensity (a :: b) = a.logProb + logDensity b by simp [logDensity],
    sampleSite_replicate ha, C85_piecewise_prior e offsetScale s θ x fh d p b hx hb]

end

/-! ## A fitted Prophet model -/

section
variable {S Sc τ V D : Type} [LinearOrder τ] [Zero V]

/-- What a successful fit leaves behind, with the data of the training dates. -/
theorem uniFitData_ok {K : Type} [Div K] {cfg : UniConfig S Sc τ V D K} {y : Frame String τ K}
    {X : Option (Frame String τ V)} {m : UniFit S Sc τ V D K} (h : uniFitData cfg y X = .ok m) :
    ∃ yT x0 x, yT.nlevels = y.nlevels ∧ cfg.trend.fit yT X cfg.unitScale = .ok m.trend ∧
      cfg.fitFeatures (X.getD (Frame.ofIndex y.times)) = .ok x0 ∧ x0.locTimes y.times = .ok x ∧
      m.trend.transform (some x) (unique y.times) = .ok m.trendData ∧
      fitEffects cfg.compile cfg.effects cfg.default (some x) y cfg.effectScale
        = .ok (m.fitted, m.warnings) ∧
      transformEffects m.fitted x (unique y.times) = .ok m.data ∧
      nonSkipped m.fitted = .ok m.objs ∧ m.yArray = y.flatVals y.rows := by
  unfold uniFitData at h
  simp only [bind, Except.bind] at h
  split at h
  · cases h
  rename_i tr htr
  split at h
  · cases h
  rename_i x0 hx0
  split at h
  · cases h
  rename_i x hx
  split at h
  · cases h
  rename_i td htd
  split at h
  · cases h
  rename_i fw hfw
  split at h
  · cases h
  rename_i data hdata
  split at h
  · cases h
  rename_i objs hobjs
  cases h
  exact ⟨_, x0, x, by split <;> rfl, htr, hx0, hx, htd, hfw, hdata, hobjs, rfl⟩

/-- Where the fitted effects come from, and what they remember. -/
theorem fitEffects_mem {K : Type} {compile : String → PyM (String → Bool)}
    {x : Frame String τ V} {y : Frame String τ K} {sc : Sc}
    {effects : List (EffectSpec S (Frame String τ K) Sc τ V D K)}
    {dflt : EffectObj S (Frame String τ K) Sc τ V D K}
    {fitted : List (FittedEffect S (Frame String τ K) Sc τ V D K)} {ws : List EffectWarning}
    (h : fitEffects compile effects dflt (some x) y sc = .ok (fitted, ws)) :
    ∀ fe ∈ fitted, ((∃ e ∈ effects, fe.name = e.name ∧ fe.effect.cls = e.effect.cls) ∨
        fe.name = "exogenous_variables_effect" ∧ fe.effect.cls = dflt.cls) ∧
      ∃ b : Bool, fe.effect.st.1 = ⟨some (if b then [] else fe.cols), some true⟩ := by
  obtain ⟨fes, hf, -, hcase⟩ := fitEffects_ok.1 h
  have h1 : ∀ fe ∈ fes, (∃ e ∈ effects, fe.name = e.name ∧ fe.effect.cls = e.effect.cls) ∧
      ∃ b : Bool, fe.effect.st.1 = ⟨some (if b then [] else fe.cols), some true⟩ := by
    intro fe hfe
    obtain ⟨e, he, hn, -, hfit⟩ := exists_of_forall₂ hf hfe
    obtain ⟨h1, -, h2⟩ := effectFit_ok hfit
    exact ⟨⟨e, he, hn, h1⟩, _, h2⟩
  intro fe hfe
  rcases hcase with ⟨-, rfl⟩ | ⟨eff, -, hfit, rfl⟩
  · exact ⟨.inl (h1 fe hfe).1, (h1 fe hfe).2⟩
  · rcases List.mem_append.1 hfe with h3 | h3
    · exact ⟨.inl (h1 fe h3).1, (h1 fe h3).2⟩
    · rw [List.mem_singleton.1 h3]
      obtain ⟨h4, -, h5⟩ := effectFit_ok hfit
      exact ⟨.inr ⟨rfl, h4⟩, _, h5⟩

/-- An effect that takes part and is skipped without columns knows its columns. -/
theorem kept_cols {K Y : Type} {fitted : List (FittedEffect S Y Sc τ V D K)}
    {fe : FittedEffect S Y Sc τ V D K} (hk : fe ∈ kept fitted)
    (htag : fe.effect.cls.tags.skipIfNoMatch = true) {b : Bool}
    (hst : fe.effect.st.1 = ⟨some (if b then [] else fe.cols), some true⟩) :
    fe.effect.st.1.inputCols = some fe.cols := by
  have := (List.mem_filter.1 hk).2
  simp only [EffectObj.skip, shouldSkip, hst, htag, Bool.and_true, decide_eq_true_eq] at this
  cases b with
  | true => simp at this
  | false => rw [hst]; rfl

end

section
variable {τ : Type} [LinearOrder τ]

theorem piecewise_fit_state {V : Type} {days : τ → ℝ}
    {suggest : List ℝ → Tensor ℝ → PyM (List ℝ × List ℝ)}
    {predict : Bool → Nat → EffectCall (Tensor ℝ) ℝ} {p : PiecewiseParams ℝ τ}
    {y : Frame String τ ℝ} {X : Option (Frame String τ V)} {sc : Scale ℝ}
    {e : EffectObj _ _ _ τ V _ ℝ}
    (h : ((piecewiseClass (V := V) days suggest predict p).new).fit y X sc = .ok e) :
    e.cls = piecewiseClass days suggest predict p ∧
      ∃ s, e.st.2 = some s ∧ piecewiseFit days suggest p y = .ok s := by
  unfold EffectObj.fit baseFit at h
  rw [if_neg (by rintro ⟨h1, -⟩; cases h1)] at h
  simp only [bind, Except.bind, EffectClass.new] at h
  cases hp : piecewiseFit days suggest p y with
  | error err =>
    simp only [piecewiseClass, hp, Except.map] at h
    cases h
  | ok s =>
    simp only [piecewiseClass, hp, Except.map] at h
    cases h
    exact ⟨rfl, s, rfl, rfl⟩

theorem piecewiseFit_priors {days : τ → ℝ}
    {suggest : List ℝ → Tensor ℝ → PyM (List ℝ × List ℝ)} {p : PiecewiseParams ℝ τ}
    {y : Frame String τ ℝ} {s : PiecewiseState ℝ τ}
    (h : piecewiseFit days suggest p y = .ok s) :
    s.priorLoc = (priorVectors s.cps s.rates p.priorScale).1 ∧
      s.priorScale = (priorVectors s.cps s.rates p.priorScale).2 := by
  unfold piecewiseFit at h
  simp only [bind, Except.bind] at h
  split at h
  · cases h
  split at h
  · cases h
  split at h
  · cases h
  split at h
  · cases h
  split at h
  · cases h
  cases h
  exact ⟨rfl, rfl⟩

/-- **C85** for a fitted forecaster with a piecewise linear trend and linear effects (one series, one
target column `c`, one changepoint interval, range and prior scale `b`).  For every value of the
parameters the log density of the model is the sum of the normal log prior of the offset, the
Laplace log priors of the changepoint coefficients, the log prior of every coefficient of every
effect, the half-normal log prior of the noise, and for every row of the training data the log
density of its target given the trend plus the effects at its date. -/
theorem C85_prophet {days : τ → ℝ} {suggest : List ℝ → Tensor ℝ → PyM (List ℝ × List ℝ)}
    {p : PiecewiseParams ℝ τ} (hsq : p.squeeze = true) {i r b : ℝ} (hi : p.interval = .scalar i)
    (hr : p.range = .scalar r) (hb : p.priorScale = .scalar b)
    {cfg : UniConfig (Option (PiecewiseState ℝ τ)) (Scale ℝ) τ ℝ (Tensor ℝ) ℝ}
    (htrend : cfg.trend = (piecewiseClass days suggest piecewisePredict p).new)
    {mode : String → String}
    (heff : ∀ e ∈ cfg.effects, e.effect.cls = linearClass (mode e.name))
    (hdef : cfg.default.cls = linearClass (mode "exogenous_variables_effect"))
    (hn : (cfg.effects.map EffectSpec.name).Nodup)
    (hres : "exogenous_variables_effect" ∉ cfg.effects.map EffectSpec.name)
    (hnt : "trend" ∉ cfg.effects.map EffectSpec.name)
    {y : Frame String τ ℝ} {c : String} (hyl : y.nlevels = 1) (hyc : y.cols = [c])
    (hys : y.rows.Pairwise fun a b => a.time < b.time)
    {X : Option (Frame String τ ℝ)} {x0 x : Frame String τ ℝ}
    (hx0 : cfg.fitFeatures (X.getD (Frame.ofIndex y.times)) = .ok x0)
    (hx : x0.locTimes y.times = .ok x) (hdates : DatesIn x y.times)
    {m : UniFit (Option (PiecewiseState ℝ τ)) (Scale ℝ) τ ℝ (Tensor ℝ) ℝ}
    (hfit : uniFitData cfg y X = .ok m) :
    ∃ s cs, m.trend.st.2 = some s ∧ s.cps = [cs] ∧
      ∀ (lik : Likelihood) (ns scale os : ℝ) (prior : String → ℝ → ℝ) (θ : SiteEnv ℝ) (L : ℝ),
      SingleSites cs θ →
      logJoint lik ns scale m.yArray (m.trend.cls.call m.trend.st)
        (piecewisePriors os m.trend.st.2) m.trendData m.data (callsOf m.objs)
        (fun n => linearPriors (prior n)) θ = .ok L →
      ∃ μ, s.offsetLoc = [μ] ∧
      let o := (θ "offset").data.headD 0
      let δ := (θ "changepoint_coefficients").data
      let σ := siteScalar θ "noise_scale"
      let β := fun n => (θ (n ++ "/coefs")).data
      let trend := fun t => trendAt rampEntry o cs δ (s.time.scaled days t)
      let effect := fun (fe : FittedEffect _ _ _ τ ℝ _ ℝ) t =>
        let v := dot (fe.cols.map (rowAt x t)) (β fe.name)
        if mode fe.name = "additive" then v else trend t * v
      L = normalLP μ os o + (δ.map (laplaceLP 0 b)).sum
        + ((kept m.fitted).map fun fe => ((β fe.name).map (prior fe.name)).sum).sum
        + halfNormalLP ns σ
        + (y.rows.map fun row => obsLog lik σ scale
            (trend row.time + ((kept m.fitted).map fun fe => effect fe row.time).sum)
            (row.val c)).sum := by
  obtain ⟨yT, x0', x', hyT, htf, hx0', hx', htd, hfe, hdata, hobjs, hya⟩ := uniFitData_ok hfit
  rw [hx0] at hx0'
  cases hx0'
  rw [hx] at hx'
  cases hx'
  have hnd : y.times.Nodup := by
    unfold Frame.times
    exact (List.pairwise_map.2 hys).imp fun h => h.ne
  rw [unique_of_nodup hnd] at htd hdata
  rw [htrend] at htf
  obtain ⟨s, cs, hs, hcs, hpw⟩ := C71_piecewise_fitted hsq hi hr (by rw [hyT, hyl]) htf
  refine ⟨s, cs, hs, hcs, ?_⟩
  intro lik ns scale os prior θ L hθ hL
  obtain ⟨hn', htr'⟩ := C17_names hn hres hnt hfe
  have hmem : ∀ fe ∈ kept m.fitted, fe.effect.cls = linearClass (mode fe.name) ∧
      fe.effect.st.1.inputCols = some fe.cols := by
    intro fe hk
    obtain ⟨h1, b', h2⟩ := fitEffects_mem hfe fe (List.mem_of_mem_filter hk)
    have h3 : fe.effect.cls = linearClass (mode fe.name) := by
      rcases h1 with ⟨e, he, hne, hcl⟩ | ⟨hne, hcl⟩
      · rw [hcl, heff e he, hne]
      · rw [hcl, hdef, hne]
    exact ⟨h3, kept_cols hk (by rw [h3]; rfl) h2⟩
  have hyv : m.yArray = y.times.map fun t => rowAt y t c := by
    rw [hya]
    unfold Frame.flatVals Frame.times
    rw [hyc, List.map_map]
    simp only [List.map_cons, List.map_nil, ← List.map_eq_flatMap]
    refine List.map_congr_left fun r hr => ?_
    simp only [Function.comp]
    rw [rowAt_of_mem hys hr]
  rw [hyv, hs] at hL
  have := C85_posterior (f := fun fe => rowValue (mode fe.name) fe.cols
      fun θ r => [dot r (θ "coefs").data]) hpw (fun fe hk => by
        have h1 := C71_effect (e := fe.effect) (mode := mode fe.name) (raw := linearRaw)
          (by rw [(hmem fe hk).1]; rfl) (by rw [(hmem fe hk).1]; intros; rfl)
          (by rw [(hmem fe hk).1]; intros; rfl) rowWise_linear
        rw [(hmem fe hk).2] at h1
        exact h1) hn' htr' hdates htd hdata hobjs
    (C85_piecewise_prior m.trend os s) (pr := fun n => linearPriors (prior n))
    (fun fe _ => C85_linear_prior fe.effect (prior fe.name)) hθ hL
  obtain ⟨-, s', hs', hpf⟩ := piecewise_fit_state htf
  rw [hs] at hs'
  cases hs'
  obtain ⟨hpl, hps⟩ := piecewiseFit_priors hpf
  obtain ⟨-, ts, -, -, hts, -⟩ := C85_terms (by
    have := (transformEffects_get hn' hdata hobjs).1
    rw [this]
    intro h
    obtain ⟨a, ha, hb⟩ : ∃ a ∈ kept m.fitted, a.name = "trend" := by
      simpa [callsOf, Function.comp_def] using h
    exact htr' (List.mem_map.2 ⟨a, List.mem_of_mem_filter ha, hb⟩)) hL
  unfold piecewisePriors at hts
  simp only [bind, Except.bind] at hts
  split at hts
  · cases hts
  rename_i so hso
  split at hts
  · cases hts
  rename_i sc hsc
  obtain ⟨-, hlo⟩ := sampleSite_ok hso
  obtain ⟨-, hlc⟩ := sampleSite_ok hsc
  obtain ⟨⟨o, ho⟩, hlδ⟩ := hθ
  rw [ho] at hlo
  simp only [List.length_cons, List.length_nil, List.length_map] at hlo
  match hoff : s.offsetLoc, hlo with
  | [μ], _ =>
    refine ⟨μ, rfl, ?_⟩
    have hlap : (List.zipWith (fun (p : ℝ × ℝ) δ => laplaceLP p.1 p.2 δ)
        (s.priorLoc.zip s.priorScale) (θ "changepoint_coefficients").data).sum
        = ((θ "changepoint_coefficients").data.map (laplaceLP 0 b)).sum := by
      rw [hpl, hps, hcs, hb] at hlc ⊢
      simp only [priorVectors, ScalarOr.toList, List.map_cons, List.map_nil, List.length_cons,
        List.length_nil, List.replicate_succ, List.replicate_zero, List.zip_cons_cons,
        List.zip_nil_right, List.flatMap_cons, List.flatMap_nil, List.append_nil, zero_add] at hlc ⊢
      match s.rates, hlc with
      | [], hlc =>
        simp only [List.zip_nil_right, List.flatMap_nil, List.zipWith_nil_left,
          List.length_nil] at hlc
        rw [List.length_eq_zero_iff.1 hlc]
        rfl
      | _ :: _, _ =>
        simp only [List.zip_cons_cons, List.zip_nil_left, List.flatMap_cons, List.flatMap_nil,
          List.append_nil]
        rw [← hlδ]
        congr 1
        induction (θ "changepoint_coefficients").data with
        | nil => rfl
        | cons a l ih => simp only [List.length_cons, List.replicate_succ, List.zip_cons_cons,
            List.zipWith_cons_cons, ih, List.map_cons]
    rw [this, hlap, hoff, ho]
    simp only [List.zipWith_cons_cons, List.zipWith_nil_right, List.sum_cons, List.sum_nil, add_zero,
      List.headD_cons]
    have hsc : ∀ n, θ.scope n "coefs" = θ (n ++ "/coefs") := by
      intro n
      unfold SiteEnv.scope
      rw [String.append_assoc]
      rfl
    simp only [hsc, rowValue, List.headD_cons]
    congr 1
    unfold Frame.times
    rw [List.map_map]
    congr 1
    refine List.map_congr_left fun row hrow => ?_
    simp only [Function.comp, rowAt_of_mem hys hrow]
    unfold piecewiseAt
    rw [ho]
    rfl

end

/-- **C85**: every observation enters through one term.  Two targets that differ at most in the
`k`-th observation have log densities that differ by the difference of that observation's terms. -/
theorem C85_one_observation {D : Type} {lik : Likelihood} {ns scale a b : ℝ} {u v : List ℝ}
    {trend : EffectCall D ℝ} {tp : Priors D} {td : D} {data : PyDict D}
    {effects : PyDict (EffectCall D ℝ)} {pr : String → Priors D} {θ : SiteEnv ℝ} {L L' : ℝ}
    (htr : "trend" ∉ effects.map Prod.fst)
    (h : logJoint lik ns scale (u ++ a :: v) trend tp td data effects pr θ = .ok L)
    (h' : logJoint lik ns scale (u ++ b :: v) trend tp td data effects pr θ = .ok L') :
    ∃ st m, computeMean trend td data effects θ = .ok st ∧ st.mean.data[u.length]? = some m ∧
      L' - L = obsLog lik (siteScalar θ "noise_scale") scale m b
        - obsLog lik (siteScalar θ "noise_scale") scale m a := by
  obtain ⟨r, hr, hl, rfl⟩ := logJoint_split h
  obtain ⟨r', hr', -, rfl⟩ := logJoint_split h'
  rw [hr] at hr'
  cases hr'
  obtain ⟨-, -, hm, -⟩ := runMean_ok htr hr
  obtain ⟨st, ss⟩ := r
  have hlen : u.length < st.mean.data.length := by
    rw [← hl]
    simp
  refine ⟨st, st.mean.data[u.length], hm, List.getElem?_eq_getElem hlen, ?_⟩
  have hd : st.mean.data = st.mean.data.take u.length ++
      st.mean.data[u.length] :: st.mean.data.drop (u.length + 1) := by
    rw [List.getElem_cons_drop, List.take_append_drop]
  have hz : ∀ c, (List.zipWith (obsLog lik (siteScalar θ "noise_scale") scale) st.mean.data
      (u ++ c :: v)).sum = (List.zipWith (obsLog lik (siteScalar θ "noise_scale") scale)
        (st.mean.data.take u.length) u).sum
      + (obsLog lik (siteScalar θ "noise_scale") scale st.mean.data[u.length] c
      + (List.zipWith (obsLog lik (siteScalar θ "noise_scale") scale)
        (st.mean.data.drop (u.length + 1)) v).sum) := by
    intro c
    conv_lhs => rw [hd]
    rw [List.zipWith_append (by simp; omega), List.sum_append, List.zipWith_cons_cons, List.sum_cons]
  rw [hz, hz]
  ring

/-! Example: training dates 0, 1, 2 with targets 1, 3, 4, one changepoint and a column `a` of `X` under
the default effect: fitting succeeds and the log density exists. -/

noncomputable def exP85 : PiecewiseParams ℝ Int := ⟨.scalar 1, .scalar 1, .scalar 2, true, none⟩

noncomputable def exCfg85 (mode : String := "multiplicative") : UniConfig (Option (PiecewiseState ℝ Int)) (Scale ℝ) Int ℝ (Tensor ℝ) ℝ where
  compile := fun _ => .ok fun _ => true
  trend := (piecewiseClass (fun n : Int => (n : ℝ)) suggestLinear piecewisePredict exP85).new
  effects := []
  default := (linearClass mode).new
  fitFeatures := .ok
  features := .ok
  discrete := false
  unitScale := .float 1
  effectScale := .float 1
  scale := 1

noncomputable def exY85 : Frame String Int ℝ :=
  ⟨1, ["y"], [⟨[], 0, fun _ => 1⟩, ⟨[], 1, fun _ => 3⟩, ⟨[], 2, fun _ => 4⟩]⟩

noncomputable def exX85 : Frame String Int ℝ :=
  ⟨1, ["a"], [⟨[], 0, fun _ => 1⟩, ⟨[], 1, fun _ => 0⟩, ⟨[], 2, fun _ => 5⟩]⟩

noncomputable def exS85 : PiecewiseState ℝ Int :=
  ⟨⟨1, 0, 1⟩, [[0]], [-3/2], [1], [0], [2], none⟩


theorem exFit85 : piecewiseFit (fun n : Int => (n : ℝ)) suggestLinear exP85 exY85 = .ok exS85 := by
  have h1 : trendTimeFit (fun n : Int => (n : ℝ)) exY85 = .ok ⟨1, 0, 1⟩ := by
    simp [trendTimeFit, exY85, Frame.times, unique, diffs, nSeriesOf]
  have h2 : setupChangepoints ((unique exY85.times).map
      ((⟨1, 0, 1⟩ : TrendTime ℝ).scaled (fun n : Int => (n : ℝ)))) 1 exP85.interval exP85.range = .ok [[0]] := by
    simp [setupChangepoints, exP85, exY85, Frame.times, unique, ScalarOr.toList, changepointsAll, changepointsOf, changepointTimes, changepointLimit, TrendTime.scaled, arange]
    rfl
  have h3 : exY85.seriesToTensor = .ok ⟨[1, 3, 1], [1, 3, 4]⟩ := by
    rfl
  have h4 : suggestLinear ((unique exY85.times).map
      ((⟨1, 0, 1⟩ : TrendTime ℝ).scaled (fun n : Int => (n : ℝ)))) ⟨[1, 3, 1], [1, 3, 4]⟩ = .ok ([-3/2], [1]) := by
    simp [suggestLinear, exY85, Frame.times, unique, TrendTime.scaled, column, get?, ravel, size]
    norm_num
  unfold piecewiseFit
  simp only [h1, bind, Except.bind, h2]
  simp only [detrended, exP85, h3]
  rw [h4]
  simp [exS85, priorVectors, ScalarOr.toList, exY85, pure, Except.pure]

noncomputable def exθ85 : SiteEnv ℝ := fun s =>
  if s = "offset" then ⟨[1], [1]⟩
  else if s = "changepoint_coefficients" then ⟨[1], [2]⟩
  else if s = "noise_scale" then ⟨[], [1]⟩
  else if s = "exogenous_variables_effect/coefs" then ⟨[1], [1 / 10]⟩ else ⟨[], []⟩

noncomputable def exTrend85 : EffectObj (Option (PiecewiseState ℝ Int)) (Frame String Int ℝ) (Scale ℝ) Int ℝ (Tensor ℝ) ℝ :=
  { exCfg85.trend with st := (⟨some ["a"], some true⟩, some exS85) }

noncomputable def exE85 (mode : String := "multiplicative") : EffectObj (Option (PiecewiseState ℝ Int)) (Frame String Int ℝ) (Scale ℝ) Int ℝ (Tensor ℝ) ℝ :=
  { (exCfg85 mode).default with st := (⟨some ["a"], some true⟩, none) }

noncomputable def exM85 (mode : String := "multiplicative") : UniFit (Option (PiecewiseState ℝ Int)) (Scale ℝ) Int ℝ (Tensor ℝ) ℝ where
  trend := exTrend85
  fitted := [⟨"exogenous_variables_effect",
    (exE85 mode), ["a"]⟩]
  warnings := []
  trendData := .data ⟨[3, 1], [1, 2, 3]⟩
  data := [("exogenous_variables_effect", .data ⟨[3, 1], [1, 0, 5]⟩)]
  objs := [("exogenous_variables_effect",
    (exE85 mode))]
  yArray := [1, 3, 4]

theorem exUni85 (mode : String) : uniFitData (exCfg85 mode) exY85 (some exX85) = .ok (exM85 mode) := by
  have h1 : (exCfg85 mode).trend.fit exY85 (some exX85) (exCfg85 mode).unitScale = .ok exTrend85 := by
    unfold EffectObj.fit baseFit
    rw [if_neg (by rintro ⟨h, -⟩; cases h)]
    have : (exCfg85 mode).trend.cls.fit (exCfg85 mode).trend.st.2 exY85 (some exX85) (exCfg85 mode).unitScale = .ok (some exS85) := by
      show (piecewiseFit (fun n : Int => (n : ℝ)) suggestLinear exP85 exY85).map some = _
      rw [exFit85]
      rfl
    simp only [bind, Except.bind, this]
    rfl
  have h2 : exX85.locTimes exY85.times = .ok exX85 := by
    unfold Frame.locTimes
    rw [if_pos (by simp [exX85, exY85, Frame.times])]
    simp [exX85, exY85, Frame.times]
  have h3 : exTrend85.transform (some exX85) (unique exY85.times) = .ok (.data ⟨[3, 1], [1, 2, 3]⟩) := by
    have hf : exX85.filterTimes (unique exY85.times) = exX85 := by
      simp [Frame.filterTimes, exX85, exY85, Frame.times, unique]
    have hm : piecewiseTransform (fun n : Int => (n : ℝ)) true exS85 (unique exY85.times) = .ok ⟨[3, 1], [1, 2, 3]⟩ := by
      simp [piecewiseTransform, changepointMatrix, changepointTensor, exS85, fhTimes, exY85, Frame.times, unique, maskedRow, rampEntry, TrendTime.scaled, bind, Except.bind, pure, Except.pure]
      norm_num
    unfold EffectObj.transform
    rw [baseTransform_eq _ (cs := ["a"]) rfl, if_neg (by intro h; cases h),
      if_pos (by simp [exX85])]
    show (piecewiseTransform (fun n : Int => (n : ℝ)) true exS85 (unique exY85.times)).map _ = _
    rw [hm]
    rfl
  have h4 : fitEffects (exCfg85 mode).compile (exCfg85 mode).effects (exCfg85 mode).default (some exX85) exY85
      (exCfg85 mode).effectScale = .ok ((exM85 mode).fitted, []) := by
    rw [fitEffects_ok]
    refine ⟨[], .nil, rfl, .inr ⟨(exE85 mode),
      ?_, ?_, ?_⟩⟩
    · simp [remainingColumns, exX85]
    · simp [remainingColumns, exX85]
      rfl
    · simp [remainingColumns, exX85, exM85, defaultEffectName]
  have h5 : transformEffects (exM85 mode).fitted exX85 (unique exY85.times) = .ok (exM85 mode).data := by
    have hf : exX85.filterTimes (unique exY85.times) = exX85 := by
      simp [Frame.filterTimes, exX85, exY85, Frame.times, unique]
    have hs : exX85.select ["a"] = .ok exX85 := by
      simp [Frame.select, exX85]
    have ht : EffectObj.transform (exE85 mode)
        (some exX85) (unique exY85.times) = .ok (.data ⟨[3, 1], [1, 0, 5]⟩) := by
      unfold EffectObj.transform
      rw [baseTransform_eq _ (cs := ["a"]) rfl, if_neg (by intro h; cases h),
        if_pos (by simp [exX85])]
      show (Frame.seriesToTensorOrArray { exX85.filterTimes (unique exY85.times) with cols := ["a"] }).map _ = _
      rw [hf]
      rfl
    have hk : (exE85 mode).skip = .ok false := rfl
    simp [transformEffects, exM85, transformStep, bind, Except.bind, hk, hs, ht, pure, Except.pure,
      PyDict.set]
  have h6 : nonSkipped (exM85 mode).fitted = .ok (exM85 mode).objs := rfl
  have h2' : (exCfg85 mode).fitFeatures ((some exX85).getD (Frame.ofIndex exY85.times)) = .ok exX85 := rfl
  have hd : (if (exCfg85 mode).discrete = true then exY85.mapVals fun _ v => v / (exCfg85 mode).scale else exY85)
    = exY85 := rfl
  unfold uniFitData
  simp only [bind, Except.bind, hd, h1, h2', h2, h3, h4, h5, h6, pure, Except.pure]
  rfl

theorem exRun85 : ∃ L, logJoint .normal (1 / 2) 1 (exM85).yArray ((exM85).trend.cls.call (exM85).trend.st)
    (piecewisePriors (1 / 10) (exM85).trend.st.2) (exM85).trendData (exM85).data (callsOf (exM85).objs)
    (fun _ => linearPriors (normalLP 0 0.1)) exθ85 = .ok L := by
  exact ⟨_, rfl⟩


example : SingleSites [0] exθ85 := ⟨⟨1, rfl⟩, rfl⟩

end PV
