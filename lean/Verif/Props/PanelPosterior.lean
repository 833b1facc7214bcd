import Verif.Model.PanelDensity
import Verif.Spec.PanelDensity
import Verif.Props.Multivariate
import Verif.Props.OwnRows
import Verif.Props.Posterior

/-!
# C90: the posterior of the hierarchical model
-/

namespace PV
open Matrix Tensor

/-- The density from a triangular factor is the textbook density. -/
theorem mvnLP_eq {n : Nat} {S : Matrix (Fin n) (Fin n) ℝ} (hl : S.IsLowerTriangular)
    (hd : ∀ i, 0 < S i i) (μ x : Fin n → ℝ) :
    mvnLP μ S x = normalDensity μ (mvnCovariance S) x := by
  have hdet : S.det = ∏ i, S i i := det_of_isLowerTriangular _ hl
  have hpos : 0 < S.det := by
    rw [hdet]
    exact Finset.prod_pos fun i _ => hd i
  unfold mvnLP normalDensity mvnCovariance
  have h1 : (S * Sᵀ)⁻¹ = S⁻¹ᵀ * S⁻¹ := by
    rw [Matrix.mul_inv_rev, ← transpose_nonsing_inv]
  have h2 : (x - μ) ⬝ᵥ ((S⁻¹ᵀ * S⁻¹) *ᵥ (x - μ))
      = (S⁻¹ *ᵥ (x - μ)) ⬝ᵥ (S⁻¹ *ᵥ (x - μ)) := by
    rw [← mulVec_mulVec, dotProduct_mulVec, vecMul_transpose]
  rw [h1, h2, det_mul, det_transpose, Real.log_mul hpos.ne' hpos.ne', hdet,
    Real.log_prod (fun i _ => (hd i).ne')]
  ring

theorem obsScaleTril_lower {n : Nat} {σ : Fin n → ℝ} {L : Matrix (Fin n) (Fin n) ℝ}
    (hs : ∀ i, 0 < σ i) (hL : CorrFactor L) :
    (obsScaleTril σ L).IsLowerTriangular ∧ ∀ i, 0 < obsScaleTril σ L i i := by
  constructor
  · intro i j hij
    rw [obsScaleTril_apply, hL.lower i j hij]
    ring
  · intro i
    rw [obsScaleTril_apply]
    exact mul_pos (mul_pos (hs i) (hL.diag i)) (hs i)

theorem panelCovariance_eq {n : Nat} (σ : Fin n → ℝ) (L : Matrix (Fin n) (Fin n) ℝ) :
    mvnCovariance (obsScaleTril σ L) = panelCovariance σ L := by
  ext i j
  rw [C46_actual]
  rfl

theorem map_range_eq {α β : Type} {l : List α} {f : Nat → β} {g : α → β}
    (h : ∀ j (hj : j < l.length), f j = g l[j]) : (List.range l.length).map f = l.map g := by
  refine List.ext_getElem (by simp) fun j h1 h2 => ?_
  simp only [List.getElem_map, List.getElem_range]
  exact h j (by simpa using h1)

/-- Specification: the array of a site holds the entries of the vector. -/
def VectorSite {n : Nat} (t : Tensor ℝ) (σ : Fin n → ℝ) : Prop :=
  t.shape = [n] ∧ ∀ i : Fin n, t.data[(i : Nat)]? = some (σ i)

/-- Specification: the array of a site holds the rows of the matrix one after the other. -/
def MatrixSite {n : Nat} (t : Tensor ℝ) (L : Matrix (Fin n) (Fin n) ℝ) : Prop :=
  t.shape = [n, n] ∧ ∀ i j : Fin n, t.data[(i : Nat) * n + j]? = some (L i j)

theorem vectorOf_eq {n : Nat} {t : Tensor ℝ} {σ : Fin n → ℝ} (h : VectorSite t σ) :
    vectorOf t n = σ := by
  funext i
  unfold vectorOf
  rw [List.getD_eq_getElem?_getD, h.2 i]
  rfl

theorem matrixOf_eq {n : Nat} {t : Tensor ℝ} {L : Matrix (Fin n) (Fin n) ℝ} (h : MatrixSite t L) :
    matrixOf t n = L := by
  ext i j
  unfold matrixOf
  rw [get?, h.1]
  have hr : ravel [n, n] [(i : Nat), j] = (i : Nat) * n + j := by
    simp [ravel, size]
  rw [hr, h.2 i j]
  rfl

section
variable {τ : Type}

/-- **C90**, the likelihood: for arrays with one block per series, one joint normal term per date;
the expected value of every series at a date is its own mean at that date. -/
theorem panelObsLog_ok {lkj : Nat → ℝ → Tensor ℝ → ℝ} {ns conc : ℝ} {ss : List (List String)}
    {fh : List τ} {y m : List String → τ → ℝ} {θ : SiteEnv ℝ} {o : ℝ}
    (h : panelObsLog lkj ns conc false (panelOf ss fh y) (panelOf ss fh m) θ = .ok o)
    (hσ : ∀ i, 0 < vectorOf (θ "std_observation") ss.length i)
    (hL : CorrFactor (matrixOf (θ "corr_matrix") ss.length)) :
    o = ((θ "std_observation").data.map (halfNormalLP ns)).sum
      + lkj ss.length conc (θ "corr_matrix")
      + (fh.map fun t => normalDensity (fun i => m (ss.get i) t)
          (panelCovariance (vectorOf (θ "std_observation") ss.length)
            (matrixOf (θ "corr_matrix") ss.length)) (fun i => y (ss.get i) t)).sum := by
  obtain ⟨obs, loc, hol, hsh, hg⟩ := C68_panel (y := panelOf ss fh y) (mean := panelOf ss fh m)
    (N := ss.length) (T := fh.length) rfl (panelOf_wf _ _ _) rfl (panelOf_wf _ _ _)
  have hlsh : loc.shape.headD 0 = fh.length := by
    unfold multivariateObs at hol
    obtain ⟨b, hb, hbs, -⟩ := timeBySeries_get? (t := panelOf ss fh m) (N := ss.length)
      (T := fh.length) rfl (panelOf_wf _ _ _)
    obtain ⟨a, ha, -, -⟩ := timeBySeries_get? (t := panelOf ss fh y) (N := ss.length)
      (T := fh.length) rfl (panelOf_wf _ _ _)
    simp only [ha, hb, bind, Except.bind, Bool.false_eq_true, if_false, pure, Except.pure,
      Except.ok.injEq, Prod.mk.injEq] at hol
    rw [← hol.2, hbs]
    rfl
  unfold panelObsLog at h
  simp only [hol, bind, Except.bind, Bool.false_eq_true, if_false] at h
  cases hs : sampleSite θ "std_observation" (List.replicate
      ((panelOf ss fh m).shape.headD 0) (halfNormalLP ns)) with
  | error e => rw [hs] at h; cases h
  | ok s =>
    rw [hs] at h
    simp only at h
    split at h
    · cases h
    · simp only [pure, Except.pure, Except.ok.injEq] at h
      rw [← h, hlsh]
      have hn : (panelOf ss fh m).shape.headD 0 = ss.length := rfl
      have e1 : logDensity [s] = ((θ "std_observation").data.map (halfNormalLP ns)).sum := by
        simp [logDensity, sampleSite_replicate hs]
      rw [e1]
      congr 2
      refine map_range_eq fun j hj => ?_
      obtain ⟨hlow, hdiag⟩ := obsScaleTril_lower hσ hL
      have := mvnLP_eq hlow hdiag (rowOf loc ss.length j) (rowOf obs ss.length j)
      rw [panelCovariance_eq] at this
      refine this.trans ?_
      congr 1
      · funext i
        unfold rowOf
        rw [(hg i j i.2 hj).2, panelOf_get? (List.getElem?_eq_getElem i.2)
          (List.getElem?_eq_getElem hj)]
        rfl
      · funext i
        unfold rowOf
        rw [(hg i j i.2 hj).1, panelOf_get? (List.getElem?_eq_getElem i.2)
          (List.getElem?_eq_getElem hj)]
        rfl

end

section
variable {S Y Sc τ V D : Type}

/-- The log priors of trend and effects. -/
theorem priors_sum [LinearOrder τ] [Zero V] {trend : EffectObj S Y Sc τ V D ℝ}
    {fitted : List (FittedEffect S Y Sc τ V D ℝ)}
    (hn : (fitted.map FittedEffect.name).Nodup) (htr : "trend" ∉ fitted.map FittedEffect.name)
    {x : Frame String τ V} {fh : List τ} {td : Transformed D}
    {data : PyDict (Transformed D)} (h1 : trend.transform (some x) fh = .ok td)
    (h2 : transformEffects fitted x fh = .ok data)
    {objs : PyDict (EffectObj S Y Sc τ V D ℝ)} (ho : nonSkipped fitted = .ok objs)
    {tp : Priors (Transformed D)} {q : SiteEnv ℝ → ℝ} (hq : LogPrior trend tp q)
    {pr : String → Priors (Transformed D)} {qe : FittedEffect S Y Sc τ V D ℝ → SiteEnv ℝ → ℝ}
    (hqe : ∀ fe ∈ kept fitted, LogPrior fe.effect (pr fe.name) (qe fe)) {θ : SiteEnv ℝ}
    {r : MeanState ℝ × List Stmt}
    (hr : runMean (trend.cls.call trend.st) tp td data (callsOf objs) pr θ = .ok r) :
    computeMean (trend.cls.call trend.st) td data (callsOf objs) θ = .ok r.1 ∧
      logDensity r.2 = q θ + ((kept fitted).map fun fe => qe fe (θ.scope fe.name)).sum := by
  obtain ⟨hobj, hdat⟩ := transformEffects_get hn h2 ho
  have hcalls : callsOf objs
      = (kept fitted).map fun fe => (fe.name, fe.effect.cls.call fe.effect.st) := by
    rw [hobj]
    simp [callsOf, Function.comp_def]
  have hfst : (callsOf objs).map Prod.fst = (kept fitted).map FittedEffect.name := by
    rw [hcalls]
    simp [Function.comp_def]
  obtain ⟨ts, sss, hm, hts, hss, hl⟩ := runMean_ok (by
    rw [hfst]
    exact fun h => htr ((List.filter_sublist.map _).subset h)) hr
  refine ⟨hm, ?_⟩
  rw [hl, hq θ x fh td [] ts h1 hts]
  congr 2
  have hss' : List.Forall₂ (fun (fe : FittedEffect S Y Sc τ V D ℝ) ss =>
      logDensity ss = qe fe (θ.scope fe.name)) (kept fitted) sss := by
    rw [hcalls, List.forall₂_map_left_iff] at hss
    rw [List.forall₂_iff_get] at hss ⊢
    refine ⟨hss.1, fun i hi hi' => ?_⟩
    obtain ⟨d, p, hd, -, hp⟩ := hss.2 i hi hi'
    have hk := List.getElem_mem hi
    obtain ⟨xc, d', hxc, hdt, hd'⟩ := hdat _ hk
    simp only [List.get_eq_getElem] at hd hp ⊢
    rw [hd'] at hd
    cases hd
    exact hqe _ hk _ _ _ _ _ _ hdt hp
  clear hss hr hl
  generalize kept fitted = l at hss'
  induction hss' with
  | nil => rfl
  | cons h1 _ ih => rw [List.map_cons, List.map_cons, h1, ih]

theorem panelLogJoint_split {lkj : Nat → ℝ → Tensor ℝ → ℝ} {ns conc : ℝ} {single : Bool}
    {y : Tensor ℝ} {trend : EffectCall D ℝ} {tp : Priors D} {td : D} {data : PyDict D}
    {effects : PyDict (EffectCall D ℝ)} {pr : String → Priors D} {θ : SiteEnv ℝ} {l : ℝ}
    (h : panelLogJoint lkj ns conc single y trend tp td data effects pr θ = .ok l) :
    ∃ r o, runMean trend tp td data effects pr θ = .ok r ∧
      panelObsLog lkj ns conc single y r.1.mean θ = .ok o ∧ l = logDensity r.2 + o := by
  unfold panelLogJoint at h
  simp only [bind, Except.bind] at h
  cases hr : runMean trend tp td data effects pr θ with
  | error e => rw [hr] at h; cases h
  | ok r =>
    rw [hr] at h
    simp only at h
    cases ho : panelObsLog lkj ns conc single y r.1.mean θ with
    | error e => rw [ho] at h; cases h
    | ok o =>
      rw [ho] at h
      cases h
      exact ⟨r, o, rfl, ho, rfl⟩

/-- **C90**: the log density of the hierarchical model, at parameter values that are positive
standard deviations and a Cholesky factor of a correlation matrix, is the sum of the log priors of
the trend, of every effect, of the standard deviations and of the correlation matrix, plus for every
training date the joint normal log density of the observations of all series at that date, each
series having the mean: its trend plus its effects there. -/
theorem C90_posterior [LinearOrder τ] [Zero V] {trend : EffectObj S Y Sc τ V D ℝ}
    {Ok : SiteEnv ℝ → Prop} {ss : List (List String)} {g : SiteEnv ℝ → List String → τ → ℝ}
    (ht : PanelTrend trend Ok ss g) {fitted : List (FittedEffect S Y Sc τ V D ℝ)}
    {f : FittedEffect S Y Sc τ V D ℝ → SiteEnv ℝ → List String → τ → ℝ → (String → V) → ℝ}
    (hf : ∀ fe ∈ kept fitted, PanelEffect fe.effect (f fe))
    (hn : (fitted.map FittedEffect.name).Nodup) (htr : "trend" ∉ fitted.map FittedEffect.name)
    {x : Frame String τ V} {fh : List τ} (hx : PanelIn x ss fh) {td : Transformed D}
    {data : PyDict (Transformed D)} (h1 : trend.transform (some x) fh = .ok td)
    (h2 : transformEffects fitted x fh = .ok data)
    {objs : PyDict (EffectObj S Y Sc τ V D ℝ)} (ho : nonSkipped fitted = .ok objs)
    {tp : Priors (Transformed D)} {q : SiteEnv ℝ → ℝ} (hq : LogPrior trend tp q)
    {pr : String → Priors (Transformed D)} {qe : FittedEffect S Y Sc τ V D ℝ → SiteEnv ℝ → ℝ}
    (hqe : ∀ fe ∈ kept fitted, LogPrior fe.effect (pr fe.name) (qe fe))
    {lkj : Nat → ℝ → Tensor ℝ → ℝ} {ns conc : ℝ} {y : List String → τ → ℝ} {θ : SiteEnv ℝ}
    (hθ : Ok θ) {σ : Fin ss.length → ℝ} (hσs : VectorSite (θ "std_observation") σ)
    (hσ : ∀ i, 0 < σ i) {L : Matrix (Fin ss.length) (Fin ss.length) ℝ}
    (hLs : MatrixSite (θ "corr_matrix") L) (hL : CorrFactor L) {l : ℝ}
    (h : panelLogJoint lkj ns conc false (panelOf ss fh y) (trend.cls.call trend.st) tp td data
      (callsOf objs) pr θ = .ok l) :
    l = q θ + ((kept fitted).map fun fe => qe fe (θ.scope fe.name)).sum
      + ((θ "std_observation").data.map (halfNormalLP ns)).sum
      + lkj ss.length conc (θ "corr_matrix")
      + (fh.map fun t => normalDensity
          (fun i => g θ (ss.get i) t + ((kept fitted).map fun fe => f fe (θ.scope fe.name) (ss.get i) t
            (g θ (ss.get i) t) (onCols fe.cols (cellAt x (ss.get i) t))).sum)
          (panelCovariance σ L) (fun i => y (ss.get i) t)).sum := by
  rw [← vectorOf_eq hσs, ← matrixOf_eq hLs]
  rw [← vectorOf_eq hσs] at hσ
  rw [← matrixOf_eq hLs] at hL
  obtain ⟨r, o, hr, hob, rfl⟩ := panelLogJoint_split h
  obtain ⟨hm, hpr⟩ := priors_sum hn htr h1 h2 ho hq hqe hr
  rw [C74_closed_form ht hf hn htr hx h1 h2 ho hθ hm] at hob
  rw [hpr, panelObsLog_ok hob hσ hL]
  ring

/-- **C90**, a hierarchy with a single series: the likelihood is that of the univariate normal
model, with the standard deviation called `std_observation`. -/
theorem C90_single {lkj : Nat → ℝ → Tensor ℝ → ℝ} {ns conc : ℝ} {y : List ℝ} {mean : Tensor ℝ}
    {θ : SiteEnv ℝ} {o : ℝ}
    (h : panelObsLog lkj ns conc true ⟨[1, y.length, 1], y⟩ mean θ = .ok o) :
    y.length = mean.data.length ∧ o = halfNormalLP ns (siteScalar θ "std_observation")
      + (List.zipWith (obsLog .normal (siteScalar θ "std_observation") 1) mean.data y).sum := by
  have hyw : (⟨[1, y.length, 1], y⟩ : Tensor ℝ).WF := by simp [WF, size]
  obtain ⟨a, ha, hsa, hga⟩ := timeBySeries_get? (t := ⟨[1, y.length, 1], y⟩) (N := 1)
    (T := y.length) rfl hyw
  have haw : a.WF := by
    unfold timeBySeries squeezeLast at ha
    simp only [List.getLast?_cons_cons, List.getLast?_singleton, if_true, bind, Except.bind, pure,
      Except.pure, Except.ok.injEq] at ha
    rw [← ha]
    exact wf_ofFn _ _
  have hae : a = columnOf y := by
    refine eq_columnOf_of_get? haw hsa fun i v hi => ?_
    have hil := (List.getElem?_eq_some_iff.1 hi).1
    rw [hga 0 i (by omega) hil, get?]
    simpa [ravel, size] using hi
  unfold panelObsLog multivariateObs at h
  simp only [ha, bind, Except.bind, if_true] at h
  cases hr : mean.reshapeInfer 1 with
  | error e => rw [hr] at h; cases h
  | ok loc =>
    have hloc : loc.data = mean.data := by
      unfold reshapeInfer at hr
      split at hr
      · cases hr; rfl
      · cases hr
    rw [hr] at h
    simp only [pure, Except.pure] at h
    cases hs : sampleSite θ "std_observation" [halfNormalLP ns] with
    | error e => rw [hs] at h; cases h
    | ok s =>
      rw [hs] at h
      simp only at h
      cases hob : observeSite "obs"
          (loc.data.map fun m => normalLP m (siteScalar θ "std_observation")) a.data with
      | error e => rw [hob] at h; cases h
      | ok ob =>
        rw [hob] at h
        cases h
        obtain ⟨rfl, hl⟩ := observeSite_ok hob
        rw [hae] at hl
        rw [List.length_map, hloc] at hl
        refine ⟨hl, ?_⟩
        simp only [logDensity, List.map_cons, List.map_nil, List.sum_cons, List.sum_nil, add_zero,
          sampleSite_one hs]
        congr 1
        unfold Stmt.logProb
        simp only [hloc, hae, columnOf, List.zipWith_map_left]
        rfl

end

/-- **C90**, independent series: if the correlation factor is the identity, the likelihood is a
product over series and dates of normal densities -- with the square of the parameter
`std_observation` as standard deviation (see C46). -/
theorem C90_uncorrelated {n : Nat} {σ : Fin n → ℝ} (hs : ∀ i, 0 < σ i) (μ x : Fin n → ℝ) :
    normalDensity μ (panelCovariance σ 1) x = ∑ i, normalLP (μ i) (σ i ^ 2) (x i) := by
  have hc : panelCovariance σ (1 : Matrix (Fin n) (Fin n) ℝ)
      = diagonal fun i => (σ i ^ 2) * (σ i ^ 2) := by
    ext i j
    unfold panelCovariance
    by_cases h : i = j
    · subst h
      rw [diagonal_apply_eq, Finset.sum_eq_single i]
      · simp only [one_apply_eq]
        ring
      · intro b _ hb
        simp [one_apply, Ne.symm hb]
      · simp
    · rw [diagonal_apply_ne _ h, Finset.sum_eq_zero, mul_zero]
      intro k _
      by_cases hik : i = k
      · subst hik
        simp [one_apply, Ne.symm h]
      · simp [one_apply, hik]
  have hinv : (diagonal fun i => (σ i ^ 2) * (σ i ^ 2))⁻¹
      = diagonal fun i => ((σ i ^ 2) * (σ i ^ 2))⁻¹ := by
    refine inv_eq_right_inv ?_
    rw [diagonal_mul_diagonal, ← diagonal_one]
    congr 1
    funext i
    have := (hs i).ne'
    field_simp
  rw [hc]
  unfold normalDensity
  rw [hinv, det_diagonal, Real.log_prod (fun i _ => by have := (hs i).ne'; positivity)]
  unfold normalLP
  simp only [dotProduct, mulVec_diagonal, Pi.sub_apply]
  have hn : (n : ℝ) * Real.log (2 * Real.pi) / 2 = ∑ _i : Fin n, Real.log (2 * Real.pi) / 2 := by
    simp
    ring
  rw [hn, neg_div, Finset.sum_div, Finset.sum_div, ← Finset.sum_neg_distrib,
    ← Finset.sum_sub_distrib, ← Finset.sum_sub_distrib]
  refine Finset.sum_congr rfl fun i _ => ?_
  have h := (hs i).ne'
  have h2 : σ i ^ 2 ≠ 0 := by positivity
  rw [Real.log_mul h2 h2]
  field_simp
  ring

/-! Example: two series `p` and `q` with dates 0, 1 and their own piecewise trends, and a column `a`
under a linear effect. -/

noncomputable def exP90 : PiecewiseParams ℝ Int := ⟨.scalar 1, .scalar 1, .scalar 2, true, none⟩

noncomputable def exS90 : PiecewiseState ℝ Int :=
  ⟨⟨1, 0, 2⟩, [[0], [0]], [0, 0], [1, 1], [0, 0], [2, 2], some [["p"], ["q"]]⟩

noncomputable def exTrend90 :
    EffectObj (Option (PiecewiseState ℝ Int)) (Frame String Int ℝ) (Scale ℝ) Int ℝ (Tensor ℝ) ℝ where
  cls := piecewiseClass (fun n : Int => (n : ℝ)) suggestLinear piecewisePredict exP90
  made := (.init, none)
  st := (⟨some ["a"], some true⟩, some exS90)

noncomputable def exE90 :
    EffectObj (Option (PiecewiseState ℝ Int)) (Frame String Int ℝ) (Scale ℝ) Int ℝ (Tensor ℝ) ℝ where
  cls := linearClass "additive"
  made := (.init, none)
  st := (⟨some ["a"], some true⟩, none)

noncomputable def exF90 : List (FittedEffect (Option (PiecewiseState ℝ Int)) (Frame String Int ℝ)
    (Scale ℝ) Int ℝ (Tensor ℝ) ℝ) := [⟨"e", exE90, ["a"]⟩]

noncomputable def exX90 : Frame String Int ℝ :=
  ⟨2, ["a"], [⟨["p"], 0, fun _ => 1⟩, ⟨["p"], 1, fun _ => 2⟩, ⟨["q"], 0, fun _ => 3⟩,
    ⟨["q"], 1, fun _ => 4⟩]⟩

noncomputable def exθ90 : SiteEnv ℝ := fun s =>
  if s = "offset" then ⟨[2], [10, 20]⟩
  else if s = "changepoint_coefficients" then ⟨[2], [1, 2]⟩
  else if s = "e/coefs" then ⟨[1], [1 / 10]⟩
  else if s = "std_observation" then ⟨[2], [1, 2]⟩
  else if s = "corr_matrix" then ⟨[2, 2], [1, 0, 3 / 5, 4 / 5]⟩ else ⟨[], []⟩

example : PanelTrend exTrend90 (PanelSites exS90.cps) [["p"], ["q"]]
    (panelTrendAt (fun n : Int => (n : ℝ)) exS90 [["p"], ["q"]]) :=
  C74_piecewise (V := ℝ) (st := exS90) (e := exTrend90) rfl rfl (by decide) rfl rfl rfl (.inl (by decide))

example : PanelSites exS90.cps exθ90 := ⟨rfl, rfl⟩

example : ∀ fe ∈ kept exF90, PanelEffect fe.effect
    (cellValue "additive" ["a"] fun θ r => [dot r (θ "coefs").data]) := by
  have he := C74_effect (e := exE90) (mode := "additive") rfl (fun _ _ _ => rfl) (fun _ => rfl)
    rowWise_linear
  intro fe h
  obtain rfl : fe = ⟨"e", exE90, ["a"]⟩ := by simpa [exF90] using List.mem_of_mem_filter h
  exact he

example : ∃ q, LogPrior exTrend90 (piecewisePriors (1 / 10) (some exS90)) q :=
  ⟨_, C85_piecewise_prior exTrend90 (1 / 10) exS90⟩

example : MatrixSite (exθ90 "corr_matrix") exL46 ∧ CorrFactor exL46 :=
  ⟨⟨rfl, fun i j => by fin_cases i <;> fin_cases j <;> rfl⟩, exL46_factor⟩

example : VectorSite (exθ90 "std_observation") ![1, 2] ∧ ∀ i, (0 : ℝ) < ![1, 2] i :=
  ⟨⟨rfl, fun i => by fin_cases i <;> rfl⟩, fun i => by fin_cases i <;> simp⟩

example : PanelIn exX90 [["p"], ["q"]] [0, 1] where
  panel := by decide
  someSeries := by simp
  series := by
    intro i s
    rw [seriesAt_iff]
    have : exX90.series = [["p"], ["q"]] := by rfl
    rw [this]
  grouped := by
    intro i j k a b c hij hjk ha hb hc hac
    have hlen : ∀ {n : Nat} {r}, exX90.rows[n]? = some r → n < 4 ∧
        r.sid = if n < 2 then ["p"] else ["q"] := by
      intro n r h
      obtain ⟨hn, rfl⟩ := List.getElem?_eq_some_iff.1 h
      have hn' : n < 4 := hn
      refine ⟨hn', ?_⟩
      clear h
      interval_cases n <;> rfl
    obtain ⟨h1, e1⟩ := hlen ha
    obtain ⟨h2, e2⟩ := hlen hb
    obtain ⟨h3, e3⟩ := hlen hc
    rw [e1, e3] at hac
    rw [e1, e2]
    split_ifs at hac ⊢ <;> simp_all <;> omega
  sorted := by
    unfold TimeSorted
    simp [exX90]
  horizon := by decide
  someDate := by simp
  covers := by simp [exX90]

example : nonSkipped exF90 = .ok [("e", exE90)] := rfl

/-- The whole run: data of trend and effect, and the log density. -/
example : ∃ td data l, exTrend90.transform (some exX90) [0, 1] = .ok td ∧
    transformEffects exF90 exX90 [0, 1] = .ok data ∧
    panelLogJoint (fun _ _ _ => 0) 1 1 false
      (panelOf [["p"], ["q"]] [(0 : Int), 1] fun _ t => (t : ℝ))
      (exTrend90.cls.call exTrend90.st) (piecewisePriors (1 / 10) (some exS90)) td data
      (callsOf [("e", exE90)]) (fun _ => linearPriors (normalLP 0 (1 / 10))) exθ90 = .ok l :=
  ⟨_, _, _, rfl, rfl, rfl⟩

example : ∃ o, panelObsLog (fun _ _ _ => 0) 1 1 true ⟨[1, 2, 1], [1, 2]⟩ ⟨[1, 2, 1], [3, 4]⟩
    (fun _ => ⟨[], [2]⟩) = .ok o := ⟨_, rfl⟩

end PV
