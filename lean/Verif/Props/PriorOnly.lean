import Verif.Props.UsualDefined

/-!
# C97: what the training data cannot tell is left to the prior
-/

set_option linter.unusedSectionVars false

namespace PV
open Tensor

/-! ## Specification -/

section
variable {τ : Type}

/-- What the coefficients of an effect multiply at date `t` with columns `r`: the waves of a
seasonality, the columns of a linear effect. -/
noncomputable def EffectKind.features (position : τ → ℤ) (p0 : ℤ) (cols : List String) :
    EffectKind → τ → (String → ℝ) → List ℝ
  | .seasonal ss _ _, t, _ =>
    (unique ((waves ss).map Wave.name)).map (waveAt (waves ss) (position t - p0))
  | .linear .., _, r => cols.map r

/-- Parameters that differ in the coefficients of the effect `n` only. -/
structure OnlyCoefs (n : String) (θ θ' : SiteEnv ℝ) : Prop where
  offset : θ' "offset" = θ "offset"
  changepoints : θ' "changepoint_coefficients" = θ "changepoint_coefficients"
  noise : θ' "noise_scale" = θ "noise_scale"
  others : ∀ k, k ≠ n → θ' (k ++ "/coefs") = θ (k ++ "/coefs")

/-- Other coefficients for the effect `n`. -/
def withCoefs (θ : SiteEnv ℝ) (n : String) (β : List ℝ) : SiteEnv ℝ :=
  fun s => if s = n ++ "/coefs" then ⟨(θ s).shape, β⟩ else θ s

end

section
variable {τ : Type} [LinearOrder τ]

theorem prior_name_ne (n : String) {k : String} (h : '/' ∉ k.toList) : n ++ "/coefs" ≠ k := by
  rintro rfl
  simp at h

theorem withCoefs_only (θ : SiteEnv ℝ) (n : String) (β : List ℝ) : OnlyCoefs n θ (withCoefs θ n β) where
  offset := if_neg (prior_name_ne n (by decide)).symm
  changepoints := if_neg (prior_name_ne n (by decide)).symm
  noise := if_neg (prior_name_ne n (by decide)).symm
  others := by
    intro k hk
    refine if_neg fun h => hk ?_
    simpa using h

theorem withCoefs_data (θ : SiteEnv ℝ) (n : String) (β : List ℝ) :
    (withCoefs θ n β (n ++ "/coefs")).data = β := by
  simp [withCoefs]

theorem kind_value (k : EffectKind) (position : τ → ℤ) (p0 : ℤ) (cols : List String) (θ : SiteEnv ℝ)
    (t : τ) (a : ℝ) (r : String → ℝ) :
    k.value position p0 cols θ t a r = combine (match k with
      | .seasonal _ mode _ => mode
      | .linear mode _ => mode) a (dot (k.features position p0 cols t r) (θ "coefs").data) := by
  cases k <;> rfl

theorem kind_features_length (k : EffectKind) (position : τ → ℤ) (p0 : ℤ) (cols : List String) (t : τ)
    (r : String → ℝ) : (k.features position p0 cols t r).length = k.size cols := by
  cases k <;> simp [EffectKind.features, EffectKind.size]

theorem sum_one_differs {α : Type} {name : α → String} {f g : α → ℝ} {a : α} : ∀ {l : List α},
    (l.map name).Nodup → a ∈ l → (∀ b ∈ l, name b ≠ name a → f b = g b) →
    (l.map f).sum - (l.map g).sum = f a - g a
  | [], _, h, _ => by cases h
  | b :: l, hn, h, hfg => by
    simp only [List.map_cons, List.nodup_cons, List.sum_cons] at hn ⊢
    rcases List.mem_cons.1 h with rfl | h
    · have : l.map f = l.map g := by
        refine List.map_congr_left fun c hc => hfg c (by simp [hc]) fun hcn => hn.1 ?_
        rw [← hcn]
        exact List.mem_map.2 ⟨c, hc, rfl⟩
      rw [this]
      ring
    · have hb : name b ≠ name a := fun hba => hn.1 (hba ▸ List.mem_map.2 ⟨a, h, rfl⟩)
      rw [hfg b (by simp) hb]
      have := sum_one_differs hn.2 h fun c hc => hfg c (by simp [hc])
      linarith

theorem scope_coefs (θ : SiteEnv ℝ) (n : String) : θ.scope n "coefs" = θ (n ++ "/coefs") := by
  unfold SiteEnv.scope
  rw [String.append_assoc]
  rfl

variable {position : τ → ℤ} {compile : String → PyM (String → Bool)}
  {order : List String → List String} {days : τ → ℝ}
  {suggest : List ℝ → Tensor ℝ → PyM (List ℝ × List ℝ)}
  {p : PiecewiseParams ℝ τ} {kind : String → EffectKind}
  {cfg : UniConfig (UsualAttrs τ) (Scale ℝ) τ ℝ (AnyData ℝ) ℝ} {y : Frame String τ ℝ} {c : String}
  {X : Option (Frame String τ ℝ)} {x : Frame String τ ℝ}
  {m : UniFit (UsualAttrs τ) (Scale ℝ) τ ℝ (AnyData ℝ) ℝ}

/-- The log posterior of a fitted forecaster. -/
noncomputable def usualDensity (kind : String → EffectKind) (lik : Likelihood) (ns scale os : ℝ)
    (m : UniFit (UsualAttrs τ) (Scale ℝ) τ ℝ (AnyData ℝ) ℝ) (θ : SiteEnv ℝ) : PyM ℝ :=
  logJoint lik ns scale m.yArray (m.trend.cls.call m.trend.st) (usualTrendPriors os m.trend.st.2)
    m.trendData m.data (callsOf m.objs) (fun n => (kind n).priors) θ

/-- **C97**: if two vectors of coefficients of an effect give the same contributions at all training
dates, the log posterior changes by the log prior of the coefficients only. -/
theorem C97_prior (hU : Usual position compile order days suggest p kind cfg)
    (hT : Training cfg y c X x) (hfit : uniFitData cfg y X = .ok m) {b : ℝ}
    (hb : p.priorScale = .scalar b) {fe} (hfe : fe ∈ m.fitted)
    (hu : (kind fe.name).used fe.cols = true) :
    ∃ s cs, m.trend.st.2 = .piecewise (some s) ∧ s.cps = [cs] ∧
      ∀ (lik : Likelihood) (ns scale os : ℝ) (θ θ' : SiteEnv ℝ) (L L' : ℝ), SingleSites cs θ →
      OnlyCoefs fe.name θ θ' →
      (∀ row ∈ y.rows,
        dot ((kind fe.name).features position (firstPosition position y.times) fe.cols row.time
          (rowAt x row.time)) (θ' (fe.name ++ "/coefs")).data
        = dot ((kind fe.name).features position (firstPosition position y.times) fe.cols row.time
          (rowAt x row.time)) (θ (fe.name ++ "/coefs")).data) →
      usualDensity kind lik ns scale os m θ = .ok L → usualDensity kind lik ns scale os m θ' = .ok L' →
      L' - L = ((θ' (fe.name ++ "/coefs")).data.map (kind fe.name).prior).sum
        - ((θ (fe.name ++ "/coefs")).data.map (kind fe.name).prior).sum := by
  obtain ⟨s, cs, hs, hcs, hF⟩ := C95_posterior hU hT hfit hb
  refine ⟨s, cs, hs, hcs, ?_⟩
  intro lik ns scale os θ θ' L L' hθ ho hsame hL hL'
  have hn := (usual_names hU hfit).1
  have hθ' : SingleSites cs θ' := by
    obtain ⟨h1, h2⟩ := hθ
    exact ⟨by rw [ho.offset]; exact h1, by rw [ho.changepoints]; exact h2⟩
  obtain ⟨μ, hμ, h1⟩ := hF lik ns scale os θ L hθ hL
  obtain ⟨μ', hμ', h2⟩ := hF lik ns scale os θ' L' hθ' hL'
  rw [hμ] at hμ'
  cases hμ'
  simp only [scope_coefs] at h1 h2
  have hσ : siteScalar θ' "noise_scale" = siteScalar θ "noise_scale" := by
    unfold siteScalar
    rw [ho.noise]
  rw [ho.offset, ho.changepoints, hσ] at h2
  have hnf : ((m.fitted.filter fun fe => (kind fe.name).used fe.cols).map FittedEffect.name).Nodup :=
    hn.sublist (List.filter_sublist.map _)
  have hprior := sum_one_differs (name := FittedEffect.name) (a := fe)
    (f := fun fe => ((θ' (fe.name ++ "/coefs")).data.map (kind fe.name).prior).sum)
    (g := fun fe => ((θ (fe.name ++ "/coefs")).data.map (kind fe.name).prior).sum) hnf
    (List.mem_filter.2 ⟨hfe, by simpa using hu⟩) (by
      intro b _ hbn
      simp only [ho.others _ hbn])
  have hrows : ∀ row ∈ y.rows, ∀ a, (m.fitted.map fun fe =>
      (kind fe.name).value position (firstPosition position y.times) fe.cols (θ'.scope fe.name)
        row.time a (rowAt x row.time)).sum
      = (m.fitted.map fun fe =>
      (kind fe.name).value position (firstPosition position y.times) fe.cols (θ.scope fe.name)
        row.time a (rowAt x row.time)).sum := by
    intro row hrow a
    refine congrArg List.sum (List.map_congr_left fun fe' hfe' => ?_)
    rw [kind_value, kind_value, scope_coefs, scope_coefs]
    by_cases hnm : fe'.name = fe.name
    · have : fe' = fe := List.inj_on_of_nodup_map hn hfe' hfe hnm
      rw [this, hsame row hrow]
    · rw [ho.others _ hnm]
  have hlik : (y.rows.map fun row => obsLog lik (siteScalar θ "noise_scale") scale
      (trendAt rampEntry ((θ "offset").data.headD 0) cs (θ "changepoint_coefficients").data
        (s.time.scaled days row.time) + (m.fitted.map fun fe =>
          (kind fe.name).value position (firstPosition position y.times) fe.cols (θ'.scope fe.name)
            row.time (trendAt rampEntry ((θ "offset").data.headD 0) cs
              (θ "changepoint_coefficients").data (s.time.scaled days row.time))
            (rowAt x row.time)).sum) (row.val c)).sum
      = (y.rows.map fun row => obsLog lik (siteScalar θ "noise_scale") scale
      (trendAt rampEntry ((θ "offset").data.headD 0) cs (θ "changepoint_coefficients").data
        (s.time.scaled days row.time) + (m.fitted.map fun fe =>
          (kind fe.name).value position (firstPosition position y.times) fe.cols (θ.scope fe.name)
            row.time (trendAt rampEntry ((θ "offset").data.headD 0) cs
              (θ "changepoint_coefficients").data (s.time.scaled days row.time))
            (rowAt x row.time)).sum) (row.val c)).sum := by
    refine congrArg List.sum (List.map_congr_left fun row hrow => ?_)
    rw [hrows row hrow]
  rw [hlik] at h2
  linarith

/-- No parameters of the same sizes with the same noise level are more probable. -/
def BestGivenNoise (kind : String → EffectKind) (cs : List ℝ) (lik : Likelihood) (ns scale os : ℝ)
    (m : UniFit (UsualAttrs τ) (Scale ℝ) τ ℝ (AnyData ℝ) ℝ) (θ : SiteEnv ℝ) : Prop :=
  let Sized := UsualSizes kind cs (m.fitted.filter fun fe => (kind fe.name).used fe.cols)
  Sized θ ∧ ∃ L, usualDensity kind lik ns scale os m θ = .ok L ∧
    ∀ θ₂ L₂, Sized θ₂ → θ₂ "noise_scale" = θ "noise_scale" →
      usualDensity kind lik ns scale os m θ₂ = .ok L₂ → L₂ ≤ L

/-- **C97**: among coefficients that give the same contributions at the training dates, a best fit
has the largest log prior. -/
theorem C97_best (hU : Usual position compile order days suggest p kind cfg)
    (hT : Training cfg y c X x) (hfit : uniFitData cfg y X = .ok m) {b : ℝ}
    (hb : p.priorScale = .scalar b)
    (hw : ∀ n ss mode s, kind n = .seasonal ss mode s → waves ss ≠ []) {fe} (hfe : fe ∈ m.fitted)
    (hu : (kind fe.name).used fe.cols = true) :
    ∃ s cs, m.trend.st.2 = .piecewise (some s) ∧ s.cps = [cs] ∧
      ∀ (lik : Likelihood) (ns scale os : ℝ) (θ : SiteEnv ℝ), BestGivenNoise kind cs lik ns scale os m θ →
      ∀ β : List ℝ, β.length = (θ (fe.name ++ "/coefs")).data.length →
      (∀ row ∈ y.rows,
        dot ((kind fe.name).features position (firstPosition position y.times) fe.cols row.time
          (rowAt x row.time)) β
        = dot ((kind fe.name).features position (firstPosition position y.times) fe.cols row.time
          (rowAt x row.time)) (θ (fe.name ++ "/coefs")).data) →
      (β.map (kind fe.name).prior).sum
        ≤ ((θ (fe.name ++ "/coefs")).data.map (kind fe.name).prior).sum := by
  obtain ⟨s, cs, hs, hcs, hP⟩ := C97_prior hU hT hfit hb hfe hu
  refine ⟨s, cs, hs, hcs, ?_⟩
  intro lik ns scale os θ hbest β hl hsame
  obtain ⟨hsz, L, hL, hmax⟩ := hbest
  have ho := withCoefs_only θ fe.name β
  have hsz' : UsualSizes kind cs (m.fitted.filter fun fe => (kind fe.name).used fe.cols)
      (withCoefs θ fe.name β) := by
    obtain ⟨⟨h1, h2⟩, h3, h4⟩ := hsz
    refine ⟨⟨by rw [ho.offset]; exact h1, by rw [ho.changepoints]; exact h2⟩,
      by rw [ho.noise]; exact h3, fun fe' hfe' => ?_⟩
    by_cases hnm : fe'.name = fe.name
    · rw [hnm, withCoefs_data, hl, ← hnm]
      exact h4 fe' hfe'
    · rw [ho.others _ hnm]
      exact h4 fe' hfe'
  obtain ⟨s', cs', hs', hcs', hD⟩ := usual_defined_of hU hT hfit hw
  rw [hs] at hs'
  cases hs'
  rw [hcs] at hcs'
  cases hcs'
  obtain ⟨L', hL'⟩ := hD lik ns scale os θ L hsz.trend hL _ hsz'
  have hle := hmax _ L' hsz' ho.noise hL'
  have := hP lik ns scale os θ _ L L' hsz.trend ho (by rw [withCoefs_data]; exact hsame) hL hL'
  rw [withCoefs_data] at this
  linarith

theorem dot_set : ∀ {f β : List ℝ} {j : Nat} (v : ℝ), f[j]? = some 0 → dot f (β.set j v) = dot f β
  | [], _, _, _, h => by simp at h
  | _ :: _, [], _, _, _ => by simp [dot]
  | a :: f, b :: β, 0, v, h => by
    simp only [List.getElem?_cons_zero, Option.some.injEq] at h
    simp [dot, h]
  | a :: f, b :: β, j + 1, v, h => by
    have := dot_set (f := f) (β := β) (j := j) v (by simpa using h)
    simp only [dot] at this ⊢
    simp [this]

theorem sum_map_set (g : ℝ → ℝ) : ∀ {β : List ℝ} {j : Nat} {u : ℝ} (v : ℝ), β[j]? = some u →
    ((β.set j v).map g).sum = (β.map g).sum - g u + g v
  | [], _, _, _, h => by simp at h
  | b :: β, 0, u, v, h => by
    simp only [List.getElem?_cons_zero, Option.some.injEq] at h
    subst h
    simp only [List.set_cons_zero, List.map_cons, List.sum_cons]
    ring
  | b :: β, j + 1, u, v, h => by
    have := sum_map_set g (β := β) (j := j) v (by simpa using h)
    simp only [List.set_cons_succ, List.map_cons, List.sum_cons, this]
    ring

theorem normalLP_max {μ s : ℝ} (hs : s ≠ 0) {u : ℝ} (h : normalLP μ s μ ≤ normalLP μ s u) : u = μ := by
  have h2 : 0 < s ^ 2 := by positivity
  by_contra hne
  have h1 : 0 < (u - μ) ^ 2 := by
    have := sub_ne_zero.2 hne
    positivity
  have h3 : 0 < (u - μ) ^ 2 / (2 * s ^ 2) := by positivity
  unfold normalLP at h
  simp only [sub_self] at h
  have h4 : ((u - μ) / s) ^ 2 / 2 = (u - μ) ^ 2 / (2 * s ^ 2) := by
    field_simp
  norm_num at h
  nlinarith [h, h3, h4]

/-- **C97**: a column (or wave) that is zero at all training dates: its coefficient in a best fit is
the mean of its normal prior. -/
theorem C97_unseen (hU : Usual position compile order days suggest p kind cfg)
    (hT : Training cfg y c X x) (hfit : uniFitData cfg y X = .ok m) {b : ℝ}
    (hb : p.priorScale = .scalar b)
    (hw : ∀ n ss mode s, kind n = .seasonal ss mode s → waves ss ≠ []) {fe} (hfe : fe ∈ m.fitted)
    (hu : (kind fe.name).used fe.cols = true) {μ sd : ℝ} (hsd : sd ≠ 0)
    (hprior : (kind fe.name).prior = normalLP μ sd) {j : Nat} (hj : j < (kind fe.name).size fe.cols)
    (hzero : ∀ row ∈ y.rows, ((kind fe.name).features position (firstPosition position y.times) fe.cols
      row.time (rowAt x row.time))[j]? = some 0) :
    ∃ s cs, m.trend.st.2 = .piecewise (some s) ∧ s.cps = [cs] ∧
      ∀ (lik : Likelihood) (ns scale os : ℝ) (θ : SiteEnv ℝ), BestGivenNoise kind cs lik ns scale os m θ →
      (θ (fe.name ++ "/coefs")).data[j]? = some μ := by
  obtain ⟨s, cs, hs, hcs, hB⟩ := C97_best hU hT hfit hb hw hfe hu
  refine ⟨s, cs, hs, hcs, ?_⟩
  intro lik ns scale os θ hbest
  have hl : j < (θ (fe.name ++ "/coefs")).data.length := by
    rw [hbest.1.coefs fe (List.mem_filter.2 ⟨hfe, by simpa using hu⟩)]
    exact hj
  have hget := List.getElem?_eq_getElem hl
  have := hB lik ns scale os θ hbest ((θ (fe.name ++ "/coefs")).data.set j μ) (by simp)
    (fun row hrow => dot_set μ (hzero row hrow))
  rw [sum_map_set _ μ hget, hprior] at this
  rw [hget]
  exact congrArg some (normalLP_max hsd (by linarith))

theorem dot_set_set : ∀ {f β : List ℝ} {i j : Nat} {a u v u' v' : ℝ}, i < j → f[i]? = some a → f[j]? = some a →
    β[i]? = some u → β[j]? = some v → u' + v' = u + v → dot f ((β.set i u').set j v') = dot f β
  | [], _, _, _, _, _, _, _, _, _, h, _, _, _, _ => by simp at h
  | _ :: _, [], _, _, _, _, _, _, _, _, _, _, h, _, _ => by simp at h
  | c :: f, b :: β, 0, 0, _, _, _, _, _, hij, _, _, _, _, _ => by omega
  | c :: f, b :: β, 0, j + 1, a, u, v, u', v', hij, h1, h2, h3, h4, h5 => by
    simp only [List.getElem?_cons_zero, Option.some.injEq] at h1 h3
    subst h1 h3
    have key : ∀ {f β : List ℝ} {j : Nat}, f[j]? = some c → β[j]? = some v →
        dot f (β.set j v') = dot f β + c * (v' - v) := by
      intro f
      induction f with
      | nil => intro β j h; simp at h
      | cons e f ih =>
        intro β j h h'
        cases β with
        | nil => simp at h'
        | cons d β =>
          cases j with
          | zero =>
            simp only [List.getElem?_cons_zero, Option.some.injEq] at h h'
            subst h h'
            simp only [dot, List.set_cons_zero, List.zipWith_cons_cons, List.sum_cons]
            ring
          | succ j =>
            have := ih (β := β) (j := j) (by simpa using h) (by simpa using h')
            simp only [dot] at this
            simp only [dot, List.set_cons_succ, List.zipWith_cons_cons, List.sum_cons, this]
            ring
    have := key (f := f) (β := β) (j := j) (by simpa using h2) (by simpa using h4)
    simp only [dot] at this
    simp only [dot, List.set_cons_zero, List.set_cons_succ, List.zipWith_cons_cons, List.sum_cons, this]
    have : u' = b + v - v' := by linarith
    rw [this]
    ring
  | c :: f, b :: β, i + 1, j + 1, a, u, v, u', v', hij, h1, h2, h3, h4, h5 => by
    have := dot_set_set (f := f) (β := β) (i := i) (j := j) (by omega) (by simpa using h1)
      (by simpa using h2) (by simpa using h3) (by simpa using h4) h5
    simp only [dot] at this
    simp only [dot, List.set_cons_succ, List.zipWith_cons_cons, List.sum_cons, this]
  | c :: f, b :: β, i + 1, 0, _, _, _, _, _, hij, _, _, _, _, _ => by omega

/-- **C97**: two columns (or waves) of an effect that agree at all training dates share their effect
equally in a best fit, if the prior is strictly log-concave. -/
theorem C97_shared (hU : Usual position compile order days suggest p kind cfg)
    (hT : Training cfg y c X x) (hfit : uniFitData cfg y X = .ok m) {b : ℝ}
    (hb : p.priorScale = .scalar b)
    (hw : ∀ n ss mode s, kind n = .seasonal ss mode s → waves ss ≠ []) {fe} (hfe : fe ∈ m.fitted)
    (hu : (kind fe.name).used fe.cols = true)
    (hprior : StrictConcaveOn ℝ Set.univ (kind fe.name).prior) {i j : Nat} (hij : i < j)
    (hj : j < (kind fe.name).size fe.cols)
    (hsame : ∀ row ∈ y.rows, ((kind fe.name).features position (firstPosition position y.times) fe.cols
        row.time (rowAt x row.time))[i]?
      = ((kind fe.name).features position (firstPosition position y.times) fe.cols
        row.time (rowAt x row.time))[j]?) :
    ∃ s cs, m.trend.st.2 = .piecewise (some s) ∧ s.cps = [cs] ∧
      ∀ (lik : Likelihood) (ns scale os : ℝ) (θ : SiteEnv ℝ), BestGivenNoise kind cs lik ns scale os m θ →
      (θ (fe.name ++ "/coefs")).data[i]? = (θ (fe.name ++ "/coefs")).data[j]? := by
  obtain ⟨s, cs, hs, hcs, hB⟩ := C97_best hU hT hfit hb hw hfe hu
  refine ⟨s, cs, hs, hcs, ?_⟩
  intro lik ns scale os θ hbest
  have hlen := hbest.1.coefs fe (List.mem_filter.2 ⟨hfe, by simpa using hu⟩)
  have hlj : j < (θ (fe.name ++ "/coefs")).data.length := by rw [hlen]; exact hj
  have hli : i < (θ (fe.name ++ "/coefs")).data.length := by omega
  have hB' := hB lik ns scale os θ hbest
  generalize (θ (fe.name ++ "/coefs")).data = β at hB' hlen hlj hli ⊢
  have hgi := List.getElem?_eq_getElem hli
  have hgj := List.getElem?_eq_getElem hlj
  generalize β[i] = u at hgi
  generalize β[j] = v at hgj
  rw [hgi, hgj]
  by_contra hne
  have hne' : u ≠ v := fun h => hne (by rw [h])
  have hmid := hprior.2 (Set.mem_univ u) (Set.mem_univ v) hne' (show (0 : ℝ) < 1 / 2 by norm_num)
    (show (0 : ℝ) < 1 / 2 by norm_num) (by norm_num)
  simp only [smul_eq_mul] at hmid
  set w := 1 / 2 * u + 1 / 2 * v with hwdef
  have h1 := hB' ((β.set i w).set j w) (by simp) (by
    intro row hrow
    have hjf : j < ((kind fe.name).features position (firstPosition position y.times) fe.cols row.time
        (rowAt x row.time)).length := by rw [kind_features_length]; exact hj
    exact dot_set_set hij ((hsame row hrow).trans (List.getElem?_eq_getElem hjf))
      (List.getElem?_eq_getElem hjf) hgi hgj (by rw [hwdef]; ring))
  rw [sum_map_set _ (u := v) w (by rw [List.getElem?_set_ne (by omega)]; exact hgj),
    sum_map_set _ w hgi] at h1
  linarith

/-- **C97**: a column of a linear effect whose coefficient is zero does not enter the forecast. -/
theorem C97_forecast (hU : Usual position compile order days suggest p kind cfg)
    (hT : Training cfg y c X x) (hfit : uniFitData cfg y X = .ok m) {fe} (hfe : fe ∈ m.fitted)
    {mode : String} {prior : ℝ → ℝ} (hk : kind fe.name = .linear mode prior) {j : Nat} {a : String}
    (hj : fe.cols[j]? = some a) (hone : ∀ i, fe.cols[i]? = some a → i = j)
    (hothers : ∀ fe' ∈ m.fitted, fe' ≠ fe → a ∉ fe'.cols) :
    ∃ s cs, m.trend.st.2 = .piecewise (some s) ∧ s.cps = [cs] ∧
      ∀ (X₁ X₂ : Option (Frame String τ ℝ)) (x₁ x₂ : Frame String τ ℝ) (fh : List τ) td₁ td₂ data₁ data₂
        (θ : SiteEnv ℝ) (st₁ st₂ : MeanState ℝ),
      cfg.features (X₁.getD (Frame.ofIndex fh)) = .ok x₁ → DatesIn x₁ fh →
      cfg.features (X₂.getD (Frame.ofIndex fh)) = .ok x₂ → DatesIn x₂ fh →
      (∀ t ∈ fh, ∀ a' ≠ a, rowAt x₂ t a' = rowAt x₁ t a') →
      uniPredictData cfg m X₁ fh = .ok (td₁, data₁) → uniPredictData cfg m X₂ fh = .ok (td₂, data₂) →
      SingleSites cs θ → (θ (fe.name ++ "/coefs")).data[j]? = some 0 →
      computeMean (m.trend.cls.call m.trend.st) td₁ data₁ (callsOf m.objs) θ = .ok st₁ →
      computeMean (m.trend.cls.call m.trend.st) td₂ data₂ (callsOf m.objs) θ = .ok st₂ →
      st₂.mean = st₁.mean := by
  obtain ⟨s, cs, hs, hcs, hF⟩ := C95_forecast hU hT hfit
  refine ⟨s, cs, hs, hcs, ?_⟩
  intro X₁ X₂ x₁ x₂ fh td₁ td₂ data₁ data₂ θ st₁ st₂ hf₁ hd₁ hf₂ hd₂ hx hp₁ hp₂ hθ h0 hm₁ hm₂
  have e₁ := hF X₁ x₁ fh td₁ data₁ θ st₁ hf₁ hd₁ hp₁ hθ hm₁
  have e₂ := hF X₂ x₂ fh td₂ data₂ θ st₂ hf₂ hd₂ hp₂ hθ hm₂
  simp only at e₁ e₂
  rw [e₁, e₂]
  congr 1
  refine List.map_congr_left fun t ht => ?_
  congr 2
  refine List.map_congr_left fun fe' hfe' => ?_
  rw [kind_value, kind_value]
  congr 1
  by_cases hfe : fe' = fe
  · subst hfe
    rw [hk, scope_coefs]
    simp only [EffectKind.features]
    have key : ∀ (cols : List String) (β : List ℝ) (j : Nat), cols[j]? = some a →
        (∀ i, cols[i]? = some a → i = j) → β[j]? = some 0 →
        dot (cols.map (rowAt x₂ t)) β = dot (cols.map (rowAt x₁ t)) β := by
      intro cols
      induction cols with
      | nil => intro β j h; simp at h
      | cons a' cols ih =>
        intro β j h hone h0
        cases β with
        | nil => simp at h0
        | cons b β =>
          cases j with
          | zero =>
            simp only [List.getElem?_cons_zero, Option.some.injEq] at h0
            have : ∀ a'' ∈ cols, a'' ≠ a := by
              rintro a'' ha rfl
              obtain ⟨k, hk⟩ := List.getElem?_of_mem ha
              have := hone (k + 1) (by simpa using hk)
              omega
            simp only [dot, List.map_cons, List.zipWith_cons_cons, List.sum_cons, h0, mul_zero, zero_add]
            rw [List.map_congr_left fun a'' ha => hx t ht a'' (this a'' ha)]
          | succ j =>
            have ha : a' ≠ a := by
              rintro rfl
              have := hone 0 (by simp)
              omega
            have := ih β j (by simpa using h) (fun i hi => by
              have := hone (i + 1) (by simpa using hi)
              omega) (by simpa using h0)
            simp only [dot] at this
            simp only [dot, List.map_cons, List.zipWith_cons_cons, List.sum_cons, hx t ht a' ha, this]
    exact key _ _ j hj hone h0
  · cases hk' : kind fe'.name with
    | seasonal ss mode' s' => rfl
    | linear mode' pr =>
      simp only [EffectKind.features]
      rw [List.map_congr_left fun a' ha' => hx t ht a' (by
        rintro rfl
        exact hothers fe' hfe' hfe ha')]

end
end PV
