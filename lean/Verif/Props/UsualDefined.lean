import Verif.Props.Defined
import Verif.Props.UniqueFit
import Verif.Props.UsualModel

/-!
# C95: the log density of trend, seasonality and regressors is defined
-/

set_option linter.unusedSectionVars false

namespace PV
open Tensor

section
variable {τ : Type} [LinearOrder τ]

/-- The number of coefficients. -/
noncomputable def EffectKind.size (cols : List String) : EffectKind → Nat
  | .seasonal ss _ _ => (unique ((waves ss).map Wave.name)).length
  | .linear .. => cols.length

/-- Statements and value of an effect are defined for `k` coefficients. -/
def RunsWith {S Y Sc D : Type} (e : EffectObj S Y Sc τ ℝ D ℝ) (pr : Priors (Transformed D)) (k : Nat) : Prop :=
  ∀ x fh d, DatesIn x fh → e.transform (some x) fh = .ok d →
    ∀ (θ : SiteEnv ℝ) (p : PyDict (Tensor ℝ)) (tr : List ℝ), (θ "coefs").data.length = k →
      tr.length = fh.length → p.get? "trend" = some (columnOf tr) →
      (∃ ss, pr θ d p = .ok ss) ∧
        ∃ v, e.cls.call e.st θ d p = .ok v ∧ v.shape = (columnOf tr).shape ∧ v.WF

theorem embed_runsWith {S S' Y Sc D D' : Type} {es : Emb S S'} {ed : Emb D D'}
    {e : EffectObj S Y Sc τ ℝ D ℝ} {pr : Priors (Transformed D)} {k : Nat} (h : RunsWith e pr k) :
    RunsWith (e.embed es ed) (pr.embed ed) k := by
  intro x fh d hx ht θ p tr hθ hl hp
  obtain ⟨d, ht', rfl⟩ := embed_transform_ok ht
  rw [embed_call]
  simp only [Priors.embed, Transformed.proj_inj]
  exact h x fh d hx ht' θ p tr hθ hl hp

/-- Coefficients times rows: the statement and the value. -/
theorem linear_runs {mode : String} {prior : ℝ → ℝ} {rows : List (List ℝ)} {k n : Nat}
    (hr : rows.length = n) {θ : SiteEnv ℝ} (hθ : (θ "coefs").data.length = k)
    {p : PyDict (Tensor ℝ)} {tr : List ℝ} (htr : tr.length = n) (hp : p.get? "trend" = some (columnOf tr)) :
    (∃ ss, linearPriors prior θ (.data ⟨[rows.length, k], rows.flatten⟩) p = .ok ss) ∧
      ∃ v, AddMul.call ⟨mode, linearRaw⟩ θ (.data ⟨[rows.length, k], rows.flatten⟩) p = .ok v ∧
        v.shape = (columnOf tr).shape ∧ v.WF := by
  constructor
  · simp only [linearPriors, Transformed.array, bind, Except.bind, sampleSite]
    rw [if_pos (by simp [hθ])]
    exact ⟨_, rfl⟩
  · exact linear_call_ok (S := Unit) (τ := ℤ) (e := ⟨linearClass mode, (.init, ()), (.init, ())⟩) rfl hθ hr htr hp

/-- The data of a seasonality effect, in terms of the inner linear effect. -/
theorem fourier_data {F Y Sc K : Type} [Ring K] {lib : FourierLib F τ K}
    {compile : String → PyM (String → Bool)} {order : List String → List String} {mode : String}
    {e : EffectObj (FourierState F) Y Sc τ K (Transformed (Tensor K)) K}
    (hc : e.cls = fourierClass lib compile order mode) {x : Frame String τ K} {fh : List τ}
    {d : Transformed (Transformed (Tensor K))} (ht : e.transform (some x) fh = .ok d) :
    ∃ φ lin cs x1 x2 d', e.st.2.features = some φ ∧ e.st.2.linear = some lin ∧
      lib.transform φ { x.filterTimes fh with cols := cs } = .ok x1 ∧
      (match e.st.2.expand with
        | none => (.ok x1 : PyM (Frame String τ K))
        | some st => expandTransform st x1) = .ok x2 ∧
      (innerLinear τ K mode lin).transform (some x2) fh = .ok d' ∧ d = .data d' ∧
      ∀ θ p, e.cls.call e.st θ d p = AddMul.call ⟨mode, linearRaw⟩ θ d' p := by
  obtain ⟨cs, d', rfl, hd⟩ := trend_transform_data (by rw [hc]; rfl) (by rw [hc]; rfl) ht
  rw [hc] at hd ⊢
  rcases hs : e.st.2 with ⟨f, ex, l⟩
  rw [hs] at hd
  cases f with
  | none => cases hd
  | some φ =>
    cases l with
    | none => cases hd
    | some lin =>
      simp only [fourierClass, hs]
      simp only [fourierClass, fourierHooks, bind, Except.bind] at hd
      split at hd
      · cases hd
      rename_i x1 hx1
      cases ex with
      | none => exact ⟨φ, lin, cs, x1, x1, d', rfl, rfl, hx1, rfl, hd, rfl, fun _ _ => rfl⟩
      | some st =>
        simp only at hd
        split at hd
        · cases hd
        rename_i x2 hx2
        exact ⟨φ, lin, cs, x1, x2, d', rfl, rfl, hx1, hx2, hd, rfl, fun _ _ => rfl⟩

variable {position : τ → ℤ} {compile : String → PyM (String → Bool)}
  {order : List String → List String}

/-- A fitted seasonality with some waves, or a fitted linear effect with some columns, can be run
with one coefficient per wave resp. column. -/
theorem kind_runs (k : EffectKind) {y : Frame String τ ℝ} {x : Frame String τ ℝ} {cols : List String}
    {sc : Scale ℝ} {e : EffectObj (UsualAttrs τ) (Frame String τ ℝ) (Scale ℝ) τ ℝ (AnyData ℝ) ℝ}
    (hfit : (k.effect position compile order).clone.fit y (some { x with cols := cols }) sc = .ok e)
    (hlv : x.nlevels = 1) (hrows : x.rows ≠ []) (hpos : k.size cols ≠ 0) :
    RunsWith e k.priors (k.size cols) := by
  cases k with
  | seasonal ss mode s =>
    simp only [EffectKind.effect, embed_clone] at hfit
    obtain ⟨e0, h0, rfl⟩ := embed_fit_ok hfit
    refine embed_runsWith ?_
    intro x' fh d hx ht θ p tr hθ hl hp
    have hlib := fourierFeatures_byDate position ss
    obtain ⟨hc, φ, x1, ex, hφ, hx1, hex, hst⟩ := fourier_fitted h0
    rw [hlib φ _ x1 hx1] at hex
    unfold fourierExpand at hex
    rw [if_neg (by
      rintro ⟨h, -⟩
      rw [show (byDate (unique ((waves ss).map Wave.name)) (fun s t => waveAt (waves ss)
        (position t - firstStep φ s)) { x with cols := cols }).nlevels = 1 from hlv] at h
      omega)] at hex
    cases hex
    obtain ⟨φ', lin, cs, z1, z2, d', h1, h2, h3, h4, h5, rfl, h6⟩ := fourier_data hc ht
    rw [h6]
    rw [hst] at h1 h2 h4
    cases h1
    cases h2
    cases h4
    rw [hlib _ _ _ h3] at h5
    have hz : DatesIn (byDate (unique ((waves ss).map Wave.name)) (fun s t => waveAt (waves ss)
        (position t - firstStep φ s)) { x'.filterTimes fh with cols := cs }) fh := by
      refine ⟨hx.flat, ?_, hx.horizon, ?_, ?_⟩
      · have : (x'.filterTimes fh).rows.Pairwise fun a b => a.time < b.time := hx.sorted.filter _
        simpa [byDate, List.pairwise_map] using this
      · intro t ht
        obtain ⟨r, hr, rfl⟩ := hx.covers t ht
        exact ⟨_, List.mem_map.2 ⟨r, List.mem_filter.2 ⟨hr, by simpa using ht⟩, rfl⟩, rfl⟩
      · intro r hr
        obtain ⟨r', hr', rfl⟩ := List.mem_map.1 hr
        exact hx.unlabelled r' (List.mem_of_mem_filter hr')
    have hne : unique ((waves ss).map Wave.name) ≠ [] := by
      intro h
      apply hpos
      simp [EffectKind.size, h]
    have hem : (byDate (unique ((waves ss).map Wave.name)) (fun s t => waveAt (waves ss)
        (position t - firstStep φ s)) { x with cols := cols }).isEmpty = false := by
      unfold Frame.isEmpty
      simp [byDate, hne, hrows]
    rw [hem] at h5
    have hde := effect_rows (e := innerLinear τ ℝ mode _) rfl (fun _ _ _ => rfl)
      (cs := unique ((waves ss).map Wave.name)) rfl (by rintro ⟨h, -⟩; exact hne (by simpa using h)) hz h5
    rw [hde]
    exact linear_runs (n := fh.length) (by simp) hθ hl hp
  | linear mode prior =>
    simp only [EffectKind.effect, embed_clone] at hfit
    have hst := effectFit_inputCols (by exact hrows) hfit
    obtain ⟨e0, h0, rfl⟩ := embed_fit_ok hfit
    have hc : e0.cls = linearClass mode := (effectFit_ok h0).1
    refine embed_runsWith ?_
    intro x' fh d hx ht θ p tr hθ hl hp
    have hst' : e0.st.1.inputCols = some cols := congrArg BaseState.inputCols hst
    have hde := effect_rows (by rw [hc]; rfl) (by rw [hc]; intros; rfl) hst' (by
      rintro ⟨h, -⟩
      apply hpos
      simpa [EffectKind.size] using h) hx ht
    rw [hde, hc]
    exact linear_runs (n := fh.length) (by simp) hθ hl hp

/-- The sizes of the parameters: an offset, one coefficient per changepoint, a noise level, one
coefficient per wave or column of every effect in the model. -/
structure UsualSizes {S Y Sc V D K : Type} (kind : String → EffectKind) (cs : List ℝ)
    (l : List (FittedEffect S Y Sc τ V D K)) (θ : SiteEnv ℝ) : Prop where
  trend : SingleSites cs θ
  noise : (θ "noise_scale").data.length = 1
  coefs : ∀ fe ∈ l, (θ (fe.name ++ "/coefs")).data.length = (kind fe.name).size fe.cols

variable {days : τ → ℝ} {suggest : List ℝ → Tensor ℝ → PyM (List ℝ × List ℝ)}
  {p : PiecewiseParams ℝ τ} {kind : String → EffectKind}
  {cfg : UniConfig (UsualAttrs τ) (Scale ℝ) τ ℝ (AnyData ℝ) ℝ} {y : Frame String τ ℝ} {c : String}
  {X : Option (Frame String τ ℝ)} {x : Frame String τ ℝ}
  {m : UniFit (UsualAttrs τ) (Scale ℝ) τ ℝ (AnyData ℝ) ℝ}

/-- Every fitted effect comes from a fit. -/
theorem usual_fits (hU : Usual position compile order days suggest p kind cfg)
    (hT : Training cfg y c X x) (hfit : uniFitData cfg y X = .ok m) :
    ∀ fe ∈ m.fitted, ((kind fe.name).effect position compile order).clone.fit y
      (some { x with cols := fe.cols }) cfg.effectScale = .ok fe.effect := by
  obtain ⟨yT, x0, x', hyT, htf, hx0, hx, htd, hfe, hdata, hobjs, hya⟩ := uniFitData_ok hfit
  obtain ⟨x0', hx0', hx'⟩ := hT.features
  rw [hx0] at hx0'
  cases hx0'
  rw [hx] at hx'
  cases hx'
  obtain ⟨fes, hf, -, hcase⟩ := fitEffects_ok.1 hfe
  have h1 : ∀ fe ∈ fes, ((kind fe.name).effect position compile order).clone.fit y
      (some { x with cols := fe.cols }) cfg.effectScale = .ok fe.effect := fun fe hfe => by
    obtain ⟨e, he, hn, -, hfit⟩ := exists_of_forall₂ hf hfe
    rw [hU.effects e he, ← hn] at hfit
    exact hfit
  rcases hcase with ⟨-, h⟩ | ⟨eff, -, h2, h⟩
  · rw [h]; exact h1
  · rw [h]
    intro fe hfe
    rcases List.mem_append.1 hfe with h3 | h3
    · exact h1 fe h3
    · cases List.mem_singleton.1 h3
      rw [hU.default] at h2
      exact h2

theorem usual_names (hU : Usual position compile order days suggest p kind cfg)
    (hfit : uniFitData cfg y X = .ok m) :
    (m.fitted.map FittedEffect.name).Nodup ∧ "trend" ∉ m.fitted.map FittedEffect.name := by
  obtain ⟨yT, x0, x', hyT, htf, hx0, hx, htd, hfe, hdata, hobjs, hya⟩ := uniFitData_ok hfit
  exact C17_names hU.nodup hU.reserved hU.notTrend hfe

theorem usual_defined (hU : Usual position compile order days suggest p kind cfg)
    (hT : Training cfg y c X x) (hfit : uniFitData cfg y X = .ok m)
    (hw : ∀ n ss mode s, kind n = .seasonal ss mode s → waves ss ≠ []) :
    ∃ s cs, m.trend.st.2 = .piecewise (some s) ∧ s.cps = [cs] ∧
      (∃ y', piecewiseFit days suggest p y' = .ok s) ∧
      (s.offsetLoc.length = 1 → (List.zipWith laplaceLP s.priorLoc s.priorScale).length = cs.length →
      ∀ (lik : Likelihood) (ns scale os : ℝ) (θ : SiteEnv ℝ),
      UsualSizes kind cs (m.fitted.filter fun fe => (kind fe.name).used fe.cols) θ →
      ∃ L, logJoint lik ns scale m.yArray (m.trend.cls.call m.trend.st)
        (usualTrendPriors os m.trend.st.2) m.trendData m.data (callsOf m.objs)
        (fun n => (kind n).priors) θ = .ok L) := by
  obtain ⟨s, cs, hs, hcs, ⟨y', hpf⟩, hpw⟩ := usual_trend hU hT hfit
  refine ⟨s, cs, hs, hcs, ⟨y', hpf⟩, ?_⟩
  intro hoff hcp lik ns scale os θ hθ
  rw [← usual_kept hU hT hfit] at hθ
  obtain ⟨hn', htr'⟩ := usual_names hU hfit
  have hfits := usual_fits hU hT hfit
  have husual := usual_fitted hU hT hfit
  obtain ⟨yT, x0, x', hyT, htf, hx0, hx, htd, hfe, hdata, hobjs, hya⟩ := uniFitData_ok hfit
  obtain ⟨x0', hx0', hx'⟩ := hT.features
  rw [hx0] at hx0'
  cases hx0'
  rw [hx] at hx'
  cases hx'
  have hnd : y.times.Nodup := by
    unfold Frame.times
    exact (List.pairwise_map.2 hT.sorted).imp fun h => h.ne
  rw [unique_of_nodup hnd] at htd hdata
  obtain ⟨⟨o, ho⟩, hlδ⟩ := hθ.trend
  rw [hU.trend] at htf
  obtain ⟨e, he, he'⟩ := embed_fit_ok htf
  obtain ⟨hcl, s', hs', -⟩ := piecewise_fit_state he
  rw [he'] at htd
  obtain ⟨td, htd', htde⟩ := embed_transform_ok htd
  have hss : s' = s := by
    rw [he'] at hs
    simp only [EffectObj.embed, hs'] at hs
    cases hs
    rfl
  subst hss
  have h1 : ∃ ts, usualTrendPriors os m.trend.st.2 θ m.trendData [] = .ok ts := by
    rw [hs, htde]
    simp only [usualTrendPriors, Priors.embed, Transformed.proj_inj]
    simp only [piecewisePriors, bind, Except.bind, sampleSite]
    rw [if_pos (by rw [ho]; simp [hoff]), if_pos (by rw [hlδ, hcp])]
    exact ⟨_, rfl⟩
  obtain ⟨ts, h1⟩ := h1
  have h2 : ∃ t, m.trend.cls.call m.trend.st θ m.trendData [] = .ok t := by
    rw [he', htde, embed_call]
    obtain ⟨cols, mm, hmd, hm⟩ := trend_transform_data (by rw [hcl]; rfl) (by rw [hcl]; rfl) htd'
    rw [hcl, hs'] at hm
    rw [hcl, hmd]
    simp only [piecewiseClass, hs', hU.squeeze] at hm ⊢
    unfold piecewiseTransform at hm
    rw [hcs] at hm
    obtain ⟨rr, h, -⟩ := C38_single (n := s'.time.nSeries) (p := []) hm hlδ.symm rfl ho
    exact ⟨rr, h⟩
  obtain ⟨t, h2⟩ := h2
  have htc := hpw θ x y.times _ t hθ.trend hT.dates (by rw [he']; exact htd) h2
  obtain ⟨hobj, hdat⟩ := transformEffects_get hn' hdata hobjs
  have hcalls : callsOf m.objs
      = (kept m.fitted).map fun fe => (fe.name, fe.effect.cls.call fe.effect.st) := by
    rw [hobj]
    simp [callsOf, Function.comp_def]
  have hsc : ∀ n, θ.scope n "coefs" = θ (n ++ "/coefs") := by
    intro n
    unfold SiteEnv.scope
    rw [String.append_assoc]
    rfl
  obtain ⟨rr, hrun, hsh, hw⟩ := runMean_succeeds (pr := fun n => (kind n).priors)
    (effects := callsOf m.objs) (data := m.data) (by
      rw [hcalls]
      intro h
      obtain ⟨a, ha, hb⟩ : ∃ a ∈ kept m.fitted, a.name = "trend" := by
        simpa [Function.comp_def] using h
      exact htr' (List.mem_map.2 ⟨a, List.mem_of_mem_filter ha, hb⟩)) h1 h2
    (by rw [htc]; exact columnOf_wf _) (by
      intro e he
      rw [hcalls] at he
      obtain ⟨fe, hk, rfl⟩ := List.mem_map.1 he
      have hmem := List.mem_of_mem_filter hk
      obtain ⟨xc, d, hxc, hd, hdd⟩ := hdat fe hk
      refine ⟨d, hdd, fun p hp => ?_⟩
      have hused : (kind fe.name).used fe.cols = true := by
        refine (husual fe hmem).2.2.1.1 ?_
        simpa using (List.mem_filter.1 hk).2
      have hpos : (kind fe.name).size fe.cols ≠ 0 := by
        cases hkd : kind fe.name with
        | seasonal ss mode sc =>
          simp only [EffectKind.size]
          intro h0
          have h0 := List.length_eq_zero_iff.1 h0
          cases hwv : waves ss with
          | nil => exact hw _ _ _ _ hkd hwv
          | cons a l =>
            rw [hwv] at h0
            have : a.name ∈ unique ((a :: l).map Wave.name) := mem_unique.2 (by simp)
            rw [h0] at this
            cases this
        | linear mode pr =>
          rw [hkd] at hused
          simpa [EffectKind.used, EffectKind.size] using hused
      have hrun := kind_runs _ (hfits fe hmem) hT.dates.flat hT.rows hpos
      rw [htc] at hp ⊢
      exact hrun xc y.times d (hT.dates.select hxc) hd _ p _ (by
        rw [hsc]
        exact hθ.coefs fe hk) (by simp) hp)
  refine logJoint_succeeds hrun ?_ hθ.noise
  rw [show rr.1.mean.data.length = size rr.1.mean.shape from hw, hsh, htc, hya]
  unfold Frame.flatVals
  rw [hT.column]
  simp [columnOf, size, Frame.times]

/-- **C95**: the log density is defined for all values of the parameters that have the right
sizes, if every seasonality has some wave. -/
theorem C95_defined (hU : Usual position compile order days suggest p kind cfg)
    (hT : Training cfg y c X x) (hfit : uniFitData cfg y X = .ok m) {b : ℝ}
    (hb : p.priorScale = .scalar b)
    (hw : ∀ n ss mode s, kind n = .seasonal ss mode s → waves ss ≠ []) :
    ∃ s cs, m.trend.st.2 = .piecewise (some s) ∧ s.cps = [cs] ∧
      (s.offsetLoc.length = 1 → s.rates ≠ [] →
      ∀ (lik : Likelihood) (ns scale os : ℝ) (θ : SiteEnv ℝ),
      UsualSizes kind cs (m.fitted.filter fun fe => (kind fe.name).used fe.cols) θ →
      ∃ L, logJoint lik ns scale m.yArray (m.trend.cls.call m.trend.st)
        (usualTrendPriors os m.trend.st.2) m.trendData m.data (callsOf m.objs)
        (fun n => (kind n).priors) θ = .ok L) := by
  obtain ⟨s, cs, hs, hcs, ⟨y', hpf⟩, h⟩ := usual_defined hU hT hfit hw
  refine ⟨s, cs, hs, hcs, fun hoff hrates => h hoff ?_⟩
  obtain ⟨hpl, hps⟩ := piecewiseFit_priors hpf
  rw [hpl, hps, hcs, hb]
  match s.rates, hrates with
  | _ :: _, _ => simp [priorVectors, ScalarOr.toList]

/-- Where the log density is defined for some parameters, it is for all of the same sizes. -/
theorem usual_defined_of (hU : Usual position compile order days suggest p kind cfg)
    (hT : Training cfg y c X x) (hfit : uniFitData cfg y X = .ok m)
    (hw : ∀ n ss mode s, kind n = .seasonal ss mode s → waves ss ≠ []) :
    ∃ s cs, m.trend.st.2 = .piecewise (some s) ∧ s.cps = [cs] ∧
      ∀ (lik : Likelihood) (ns scale os : ℝ) (θ₀ : SiteEnv ℝ) (L₀ : ℝ), SingleSites cs θ₀ →
      logJoint lik ns scale m.yArray (m.trend.cls.call m.trend.st)
        (usualTrendPriors os m.trend.st.2) m.trendData m.data (callsOf m.objs)
        (fun n => (kind n).priors) θ₀ = .ok L₀ →
      ∀ θ, UsualSizes kind cs (m.fitted.filter fun fe => (kind fe.name).used fe.cols) θ →
      ∃ L, logJoint lik ns scale m.yArray (m.trend.cls.call m.trend.st)
        (usualTrendPriors os m.trend.st.2) m.trendData m.data (callsOf m.objs)
        (fun n => (kind n).priors) θ = .ok L := by
  obtain ⟨s, cs, hs, hcs, -, h⟩ := usual_defined hU hT hfit hw
  refine ⟨s, cs, hs, hcs, fun lik ns scale os θ₀ L₀ h₀ hL₀ => ?_⟩
  obtain ⟨r, hr, -, -⟩ := logJoint_split hL₀
  have htp : ∃ ss, usualTrendPriors os m.trend.st.2 θ₀ m.trendData [] = .ok ss := by
    unfold runMean at hr
    cases ht : usualTrendPriors os m.trend.st.2 θ₀ m.trendData [] with
    | error e => rw [ht] at hr; cases hr
    | ok ss => exact ⟨ss, rfl⟩
  obtain ⟨ss, hss⟩ := htp
  rw [hs] at hss
  simp only [usualTrendPriors, Priors.embed] at hss
  split at hss
  · obtain ⟨⟨o, ho⟩, hlδ⟩ := h₀
    simp only [piecewisePriors, bind, Except.bind, sampleSite] at hss
    split at hss
    · cases hss
    rename_i h1
    split at h1
    · rename_i h2
      split at hss
      · cases hss
      rename_i h3
      split at h3
      · rename_i h4
        refine h ?_ ?_ lik ns scale os
        · rw [ho] at h2
          simpa using h2.symm
        · rw [← h4, hlδ]
      · cases h3
    · cases h1
  · cases hss

end
end PV
