import Verif.Props.BestFit
import Verif.Props.PriorOnly

/-!
# C94: the best fit of a forecaster with trend, seasonalities and regressors
-/

set_option linter.unusedSectionVars false

namespace PV
open Tensor Filter

section
variable {τ : Type} [LinearOrder τ]

/-- Additive or multiplicative. -/
def EffectKind.modeOf : EffectKind → String
  | .seasonal _ mode _ => mode
  | .linear mode _ => mode

/-- The effects in the model. -/
abbrev usedEffects (kind : String → EffectKind) (m : UniFit (UsualAttrs τ) (Scale ℝ) τ ℝ (AnyData ℝ) ℝ) :=
  m.fitted.filter fun fe => (kind fe.name).used fe.cols

/-- The trend of given parameters. -/
noncomputable def usualTrend (days : τ → ℝ) (s : PiecewiseState ℝ τ) (cs : List ℝ) (θ : SiteEnv ℝ) (t : τ) : ℝ :=
  trendAt rampEntry ((θ "offset").data.headD 0) cs (θ "changepoint_coefficients").data
    (s.time.scaled days t)

variable {position : τ → ℤ} {compile : String → PyM (String → Bool)}
  {order : List String → List String} {days : τ → ℝ}
  {suggest : List ℝ → Tensor ℝ → PyM (List ℝ × List ℝ)}
  {p : PiecewiseParams ℝ τ} {kind : String → EffectKind}
  {cfg : UniConfig (UsualAttrs τ) (Scale ℝ) τ ℝ (AnyData ℝ) ℝ} {y : Frame String τ ℝ} {c : String}
  {X : Option (Frame String τ ℝ)} {x : Frame String τ ℝ}
  {m : UniFit (UsualAttrs τ) (Scale ℝ) τ ℝ (AnyData ℝ) ℝ}

/-- The log density in terms of features and coefficients. -/
theorem usual_formula_any (hU : Usual position compile order days suggest p kind cfg)
    (hT : Training cfg y c X x) (hfit : uniFitData cfg y X = .ok m) {b : ℝ}
    (hb : p.priorScale = .scalar b) :
    ∃ s cs, m.trend.st.2 = .piecewise (some s) ∧ s.cps = [cs] ∧
      ∀ (lik : Likelihood) (ns scale os : ℝ) (θ : SiteEnv ℝ) (L : ℝ), SingleSites cs θ →
      usualDensity kind lik ns scale os m θ = .ok L →
      ∃ μ, s.offsetLoc = [μ] ∧
      L = normalLP μ os ((θ "offset").data.headD 0)
        + ((θ "changepoint_coefficients").data.map (laplaceLP 0 b)).sum
        + ((usedEffects kind m).map fun fe =>
            ((θ (fe.name ++ "/coefs")).data.map (kind fe.name).prior).sum).sum
        + halfNormalLP ns (siteScalar θ "noise_scale")
        + (y.rows.map fun row => obsLog lik (siteScalar θ "noise_scale") scale
            (usualTrend days s cs θ row.time + ((usedEffects kind m).map fun fe =>
              combine (kind fe.name).modeOf (usualTrend days s cs θ row.time)
                (dot ((kind fe.name).features position (firstPosition position y.times) fe.cols row.time
                  (rowAt x row.time)) (θ (fe.name ++ "/coefs")).data)).sum)
            (row.val c)).sum := by
  obtain ⟨s, cs, hs, hcs, hF⟩ := C95_posterior hU hT hfit hb
  refine ⟨s, cs, hs, hcs, fun lik ns scale os θ L hθ hL => ?_⟩
  obtain ⟨μ, hμ, h⟩ := hF lik ns scale os θ L hθ hL
  refine ⟨μ, hμ, ?_⟩
  simp only [scope_coefs] at h
  rw [h]
  congr 1
  refine congrArg List.sum (List.map_congr_left fun row _ => ?_)
  rw [← usual_sum]
  congr 2
  refine congrArg List.sum ?_
  refine List.map_congr_left fun fe _ => ?_
  rw [kind_value, scope_coefs]
  cases kind fe.name <;> rfl

end

/-! ## Coordinates -/

section
variable {α : Type} (name : α → String) (size : α → Nat)

/-- Coordinates of the parameters: offset, changepoint coefficients, effect coefficients. -/
abbrev Coords (cs : List ℝ) (l : List α) : Type :=
  Unit ⊕ Fin cs.length ⊕ (Σ k : Fin l.length, Fin (size l[k]))

variable {name size} {cs : List ℝ} {l : List α}

def coordsCps (v : Coords size cs l → ℝ) : List ℝ := List.ofFn fun j => v (.inr (.inl j))

def coordsCoefs (v : Coords size cs l → ℝ) (k : Fin l.length) : List ℝ :=
  List.ofFn fun j => v (.inr (.inr ⟨k, j⟩))

open Classical in
/-- The parameters of a vector. -/
noncomputable def sitesOf (name : α → String) (σ : ℝ) (v : Coords size cs l → ℝ) : SiteEnv ℝ := fun n =>
  if n = "offset" then ⟨[1], [v (.inl ())]⟩
  else if n = "changepoint_coefficients" then ⟨[cs.length], coordsCps v⟩
  else if n = "noise_scale" then ⟨[], [σ]⟩
  else if h : ∃ k : Fin l.length, n = name l[k] ++ "/coefs" then
    ⟨[size l[h.choose]], coordsCoefs v h.choose⟩
  else ⟨[], []⟩

theorem sitesOf_coefs (hn : (l.map name).Nodup) (σ : ℝ) (v : Coords size cs l → ℝ)
    (k : Fin l.length) : (sitesOf name σ v (name l[k] ++ "/coefs")).data = coordsCoefs v k := by
  unfold sitesOf
  rw [if_neg (coefs_site_ne _ (by decide)), if_neg (coefs_site_ne _ (by decide)),
    if_neg (coefs_site_ne _ (by decide)), dif_pos ⟨k, rfl⟩]
  have h : ∃ k' : Fin l.length, name l[k] ++ "/coefs" = name l[k'] ++ "/coefs" := ⟨k, rfl⟩
  have : h.choose = k := by
    have h1 := h.choose_spec
    generalize h.choose = k' at h1
    have h2 : name l[k] = name l[k'] := by simpa using h1
    have := List.nodup_iff_injective_get.1 hn (a₁ := ⟨k, by simp⟩) (a₂ := ⟨k', by simp⟩) (by simpa using h2)
    exact (Fin.ext (by simpa using this)).symm
  simp only
  rw [this]

noncomputable def coordsOf (name : α → String) (θ : SiteEnv ℝ) : Coords size cs l → ℝ
  | .inl _ => (θ "offset").data.headD 0
  | .inr (.inl j) => (θ "changepoint_coefficients").data.getD j 0
  | .inr (.inr ⟨k, j⟩) => (θ (name l[k] ++ "/coefs")).data.getD j 0

end

section
variable {τ : Type} [LinearOrder τ]
variable {position : τ → ℤ} {compile : String → PyM (String → Bool)}
  {order : List String → List String} {days : τ → ℝ}
  {suggest : List ℝ → Tensor ℝ → PyM (List ℝ × List ℝ)}
  {p : PiecewiseParams ℝ τ} {kind : String → EffectKind}
  {cfg : UniConfig (UsualAttrs τ) (Scale ℝ) τ ℝ (AnyData ℝ) ℝ} {y : Frame String τ ℝ} {c : String}
  {X : Option (Frame String τ ℝ)} {x : Frame String τ ℝ}
  {m : UniFit (UsualAttrs τ) (Scale ℝ) τ ℝ (AnyData ℝ) ℝ}

/-- The number of coefficients of an effect. -/
noncomputable abbrev usedSize {S Y Sc V D K : Type} (kind : String → EffectKind) (fe : FittedEffect S Y Sc τ V D K) : Nat :=
  (kind fe.name).size fe.cols

/-- The log prior of each coordinate. -/
noncomputable def coordPrior {S Y Sc V D K : Type} (kind : String → EffectKind) (μ os b : ℝ) (cs : List ℝ)
    (l : List (FittedEffect S Y Sc τ V D K)) : Coords (usedSize kind) cs l → ℝ → ℝ
  | .inl _ => normalLP μ os
  | .inr (.inl _) => laplaceLP 0 b
  | .inr (.inr ⟨k, _⟩) => (kind l[k].name).prior

/-- The trend in terms of the coordinates. -/
noncomputable def coordTrend {α : Type} {size : α → Nat} (days : τ → ℝ) (s : PiecewiseState ℝ τ) (cs : List ℝ)
    {l : List α} (v : Coords size cs l → ℝ) (t : τ) : ℝ :=
  trendAt rampEntry (v (.inl ())) cs (coordsCps v) (s.time.scaled days t)

/-- The mean in terms of the coordinates. -/
noncomputable def coordMean {S Y Sc V D K : Type} (position : τ → ℤ) (p0 : ℤ) (kind : String → EffectKind)
    (days : τ → ℝ) (x : Frame String τ ℝ) (s : PiecewiseState ℝ τ) (cs : List ℝ)
    {l : List (FittedEffect S Y Sc τ V D K)} (v : Coords (usedSize kind) cs l → ℝ) (t : τ) : ℝ :=
  coordTrend days s cs v t + ∑ k : Fin l.length, combine (kind l[k].name).modeOf (coordTrend days s cs v t)
    (dot ((kind l[k].name).features position p0 l[k].cols t (rowAt x t)) (coordsCoefs v k))

theorem continuous_coordTrend {α : Type} {size : α → Nat} {s : PiecewiseState ℝ τ} {cs : List ℝ}
    {l : List α} (t : τ) : Continuous fun v : Coords size cs l → ℝ => coordTrend days s cs v t := by
  refine (continuous_apply _).add ?_
  exact continuous_zipWith_ofFn (fun u => continuous_id.mul continuous_const) _
    fun i => continuous_apply _

theorem continuous_coordMean {S Y Sc V D K : Type} {p0 : ℤ} {s : PiecewiseState ℝ τ} {cs : List ℝ}
    {l : List (FittedEffect S Y Sc τ V D K)} (t : τ) : Continuous fun v : Coords (usedSize kind) cs l → ℝ =>
    coordMean position p0 kind days x s cs v t := by
  have h1 := continuous_coordTrend (days := days) (s := s) (cs := cs) (l := l) (size := usedSize kind) t
  refine h1.add (continuous_finset_sum _ fun k _ => ?_)
  have h2 : Continuous fun v : Coords (usedSize kind) cs l → ℝ =>
      dot ((kind l[k].name).features position p0 l[k].cols t (rowAt x t)) (coordsCoefs v k) :=
    continuous_zipWith_ofFn (fun u => continuous_const.mul continuous_id) _
      fun i => continuous_apply _
  simp only [combine]
  split
  · exact h2
  · exact h1.mul h2

/-- The log density in terms of the coordinates, which are all parameters of the right sizes. -/
theorem usual_coords_any (hU : Usual position compile order days suggest p kind cfg)
    (hT : Training cfg y c X x) (hfit : uniFitData cfg y X = .ok m) {b : ℝ}
    (hb : p.priorScale = .scalar b)
    (hw : ∀ n ss mode s, kind n = .seasonal ss mode s → waves ss ≠ []) :
    ∃ s cs, m.trend.st.2 = .piecewise (some s) ∧ s.cps = [cs] ∧
    (s.offsetLoc.length = 1 → s.rates ≠ [] → ∃ μ, s.offsetLoc = [μ] ∧
      (∀ (v : Coords (usedSize kind) cs (usedEffects kind m) → ℝ) (σ : ℝ),
        UsualSizes kind cs (usedEffects kind m) (sitesOf FittedEffect.name σ v)) ∧
      (∀ (lik : Likelihood) (ns scale os σ : ℝ) (v : Coords (usedSize kind) cs (usedEffects kind m) → ℝ),
        usualDensity kind lik ns scale os m (sitesOf FittedEffect.name σ v)
          = .ok (∑ i, coordPrior kind μ os b cs (usedEffects kind m) i (v i) + (halfNormalLP ns σ
            + (y.rows.map fun row => obsLog lik σ scale (coordMean position (firstPosition position y.times) kind
                days x s cs v row.time) (row.val c)).sum))) ∧
      (∀ (lik : Likelihood) (ns scale os σ : ℝ) (θ : SiteEnv ℝ), UsualSizes kind cs (usedEffects kind m) θ →
        (θ "noise_scale").data = [σ] →
        usualDensity kind lik ns scale os m θ = usualDensity kind lik ns scale os m
          (sitesOf FittedEffect.name σ
            (coordsOf FittedEffect.name θ : Coords (usedSize kind) cs (usedEffects kind m) → ℝ)))) := by
  obtain ⟨s, cs, hs, hcs, hF⟩ := usual_formula_any hU hT hfit hb
  obtain ⟨s', cs', hs', hcs', hD⟩ := C95_defined hU hT hfit hb hw
  rw [hs] at hs'
  cases hs'
  rw [hcs] at hcs'
  cases hcs'
  refine ⟨s, cs, hs, hcs, ?_⟩
  intro hoff hrates
  obtain ⟨μ, hμ⟩ := List.length_eq_one_iff.1 hoff
  have hn' : ((usedEffects kind m).map FittedEffect.name).Nodup :=
    (usual_names hU hfit).1.sublist (List.filter_sublist.map _)
  set l := usedEffects kind m with hl
  have key : ∀ (lik : Likelihood) (ns scale os σ : ℝ) (θ : SiteEnv ℝ) (L : ℝ) (v : Coords (usedSize kind) cs l → ℝ),
      UsualSizes kind cs l θ →
      (θ "noise_scale").data = [σ] → (θ "offset").data = [v (.inl ())] →
      (θ "changepoint_coefficients").data = coordsCps v →
      (∀ k : Fin l.length, (θ (l[k].name ++ "/coefs")).data = coordsCoefs v k) →
      usualDensity kind lik ns scale os m θ = .ok L →
      L = ∑ i, coordPrior kind μ os b cs l i (v i) + (halfNormalLP ns σ
        + (y.rows.map fun row => obsLog lik σ scale (coordMean position (firstPosition position y.times) kind
                days x s cs v row.time) (row.val c)).sum) := by
    intro lik ns scale os σ θ L v hz hσ ho hδ hβ hL
    obtain ⟨μ', hμ', hL'⟩ := hF lik ns scale os θ L hz.trend hL
    rw [hμ] at hμ'
    cases hμ'
    rw [hL']
    have hσ' : siteScalar θ "noise_scale" = σ := by
      unfold siteScalar
      rw [hσ]
      rfl
    have hsum : ∀ g : FittedEffect _ _ _ τ ℝ _ ℝ → ℝ, (l.map g).sum = ∑ k : Fin l.length, g l[k] := by
      intro g
      rw [← Fin.sum_univ_fun_getElem]
      rfl
    simp only [← hl, hσ', usualTrend, hδ, ho, List.headD_cons, hsum, hβ]
    have e1 : ((coordsCps v).map (laplaceLP 0 b)).sum = ∑ j : Fin cs.length, laplaceLP 0 b (v (.inr (.inl j))) := by
      rw [coordsCps, List.map_ofFn, List.sum_ofFn]
      rfl
    have e2 : ∀ k, ((coordsCoefs v k).map (kind l[k].name).prior).sum
        = ∑ j : Fin (usedSize kind l[k]), (kind l[k].name).prior (v (.inr (.inr ⟨k, j⟩))) := by
      intro k
      rw [coordsCoefs, List.map_ofFn, List.sum_ofFn]
      rfl
    have e3 : ∑ i, coordPrior kind μ os b cs l i (v i) = normalLP μ os (v (.inl ()))
        + (∑ j : Fin cs.length, laplaceLP 0 b (v (.inr (.inl j)))
        + ∑ k : Fin l.length, ∑ j : Fin (usedSize kind l[k]), (kind l[k].name).prior (v (.inr (.inr ⟨k, j⟩)))) := by
      rw [Fintype.sum_sum_type, Fintype.sum_sum_type, Fintype.sum_sigma]
      simp only [Finset.univ_unique, Finset.sum_singleton, coordPrior]
    rw [e3]
    simp only [e1, e2, coordMean, coordTrend]
    ring_nf
  have hsz : ∀ (v : Coords (usedSize kind) cs l → ℝ) (σ : ℝ),
      UsualSizes kind cs l (sitesOf FittedEffect.name σ v) := by
    intro v σ
    refine ⟨⟨⟨_, rfl⟩, by simp [sitesOf, coordsCps]⟩, by simp [sitesOf], fun fe hfe => ?_⟩
    obtain ⟨k, hk, rfl⟩ := List.mem_iff_getElem.1 hfe
    have := sitesOf_coefs hn' σ v ⟨k, hk⟩
    simp only [Fin.getElem_fin] at this
    rw [this]
    simp [coordsCoefs, usedSize]
  have hval : ∀ (lik : Likelihood) (ns scale os σ : ℝ) (v : Coords (usedSize kind) cs l → ℝ),
        usualDensity kind lik ns scale os m (sitesOf FittedEffect.name σ v)
          = .ok (∑ i, coordPrior kind μ os b cs l i (v i) + (halfNormalLP ns σ
            + (y.rows.map fun row => obsLog lik σ scale (coordMean position (firstPosition position y.times) kind
                days x s cs v row.time) (row.val c)).sum)) := by
    intro lik ns scale os σ v
    obtain ⟨L, hL⟩ := hD hoff hrates lik ns scale os _ (hsz v σ)
    rw [← key lik ns scale os σ _ L v (hsz v σ) rfl rfl rfl (sitesOf_coefs hn' σ v) hL]
    exact hL
  refine ⟨μ, hμ, hsz, hval, fun lik ns scale os σ θ hz hσ => ?_⟩
  obtain ⟨L, hL⟩ := hD hoff hrates lik ns scale os θ hz
  rw [hval, ← key lik ns scale os σ θ L (coordsOf FittedEffect.name θ) hz hσ (by
      obtain ⟨o, ho⟩ := hz.trend.1
      simp [coordsOf, ho]) (ofFn_getD hz.trend.2 0).symm
      (fun k => (ofFn_getD (hz.coefs _ (List.getElem_mem _)) 0).symm) hL]
  exact hL

theorem usual_coords (hU : Usual position compile order days suggest p kind cfg)
    (hT : Training cfg y c X x) (hfit : uniFitData cfg y X = .ok m) {b : ℝ}
    (hb : p.priorScale = .scalar b)
    (hw : ∀ n ss mode s, kind n = .seasonal ss mode s → waves ss ≠ []) :
    ∃ s cs, m.trend.st.2 = .piecewise (some s) ∧ s.cps = [cs] ∧
    (s.offsetLoc.length = 1 → s.rates ≠ [] → ∃ μ, s.offsetLoc = [μ] ∧
      (∀ (v : Coords (usedSize kind) cs (usedEffects kind m) → ℝ) (σ : ℝ),
        UsualSizes kind cs (usedEffects kind m) (sitesOf FittedEffect.name σ v)) ∧
      (∀ (ns scale os σ : ℝ) (v : Coords (usedSize kind) cs (usedEffects kind m) → ℝ),
        usualDensity kind .normal ns scale os m (sitesOf FittedEffect.name σ v)
          = .ok (∑ i, coordPrior kind μ os b cs (usedEffects kind m) i (v i) + (halfNormalLP ns σ
            + (y.rows.map fun row => normalLP (coordMean position (firstPosition position y.times) kind
                days x s cs v row.time) σ (row.val c)).sum))) ∧
      (∀ (ns scale os σ : ℝ) (θ : SiteEnv ℝ), UsualSizes kind cs (usedEffects kind m) θ →
        (θ "noise_scale").data = [σ] →
        usualDensity kind .normal ns scale os m θ = usualDensity kind .normal ns scale os m
          (sitesOf FittedEffect.name σ
            (coordsOf FittedEffect.name θ : Coords (usedSize kind) cs (usedEffects kind m) → ℝ)))) := by
  obtain ⟨s, cs, hs, hcs, h⟩ := usual_coords_any hU hT hfit hb hw
  refine ⟨s, cs, hs, hcs, fun h1 h2 => ?_⟩
  obtain ⟨μ, hμ, hsz, hval, hall⟩ := h h1 h2
  exact ⟨μ, hμ, hsz, hval .normal, hall .normal⟩

theorem continuous_coordPrior {S Y Sc V D K : Type} {μ os b : ℝ} {cs : List ℝ}
    {l : List (FittedEffect S Y Sc τ V D K)} (hpc : ∀ n, Continuous (kind n).prior) :
    ∀ i, Continuous (coordPrior kind μ os b cs l i) := by
  rintro (_ | _ | ⟨k, _⟩)
  · exact continuous_normalLP _ _
  · exact continuous_laplaceLP _ _
  · exact hpc _

theorem tendsto_coordPrior {S Y Sc V D K : Type} {μ os b : ℝ} (hos : os ≠ 0) (hb0 : 0 < b) {cs : List ℝ}
    {l : List (FittedEffect S Y Sc τ V D K)} (hpt : ∀ n, Tendsto (kind n).prior (cocompact ℝ) atBot) :
    ∀ i, Tendsto (coordPrior kind μ os b cs l i) (cocompact ℝ) atBot := by
  rintro (_ | _ | ⟨k, _⟩)
  · exact tendsto_normalLP _ hos
  · exact tendsto_laplaceLP _ hb0
  · exact hpt _

/-- **C94**: for every noise level there are parameters that no others of the right sizes beat, if
the log densities of the priors are continuous and tend to `-∞` (the default does, and that of a
seasonality).  The effects may also be multiplicative. -/
theorem C94_usual_exists (hU : Usual position compile order days suggest p kind cfg)
    (hT : Training cfg y c X x) (hfit : uniFitData cfg y X = .ok m) {b : ℝ}
    (hb : p.priorScale = .scalar b)
    (hw : ∀ n ss mode s, kind n = .seasonal ss mode s → waves ss ≠ []) :
    ∃ s cs, m.trend.st.2 = .piecewise (some s) ∧ s.cps = [cs] ∧
    (s.offsetLoc.length = 1 → s.rates ≠ [] →
    ∀ (ns scale os σ : ℝ), 0 < b → os ≠ 0 →
    (∀ n, Continuous (kind n).prior) → (∀ n, Tendsto (kind n).prior (cocompact ℝ) atBot) →
    ∃ θ, (θ "noise_scale").data = [σ] ∧ UsualSizes kind cs (usedEffects kind m) θ ∧
      ∃ L, usualDensity kind .normal ns scale os m θ = .ok L ∧
      ∀ θ' L', UsualSizes kind cs (usedEffects kind m) θ' → (θ' "noise_scale").data = [σ] →
        usualDensity kind .normal ns scale os m θ' = .ok L' → L' ≤ L) := by
  obtain ⟨s, cs, hs, hcs, hC⟩ := usual_coords hU hT hfit hb hw
  refine ⟨s, cs, hs, hcs, ?_⟩
  intro hoff hrates ns scale os σ hb0 hos hpc hpt
  obtain ⟨μ, -, hsz, hval, hall⟩ := hC hoff hrates
  obtain ⟨v, hv⟩ := exists_best (f := coordPrior kind μ os b cs (usedEffects kind m))
    (R := fun v => halfNormalLP ns σ + (y.rows.map fun row => normalLP (coordMean position
      (firstPosition position y.times) kind days x s cs v row.time) σ (row.val c)).sum)
    (C := halfNormalLP ns σ + (y.rows.map fun _ => -Real.log σ - Real.log (2 * Real.pi) / 2).sum)
    (continuous_coordPrior hpc) (tendsto_coordPrior hos hb0 hpt)
    (continuous_const.add (continuous_map_sum _ fun row _ =>
      (continuous_normalLP_loc _ _).comp (continuous_coordMean _)))
    (fun v => add_le_add_right (List.sum_le_sum fun row _ => normalLP_le _ _ _) _)
  refine ⟨sitesOf FittedEffect.name σ v, rfl, hsz v σ, _, hval ns scale os σ v, fun θ' L' hz hσ hL' => ?_⟩
  rw [hall ns scale os σ θ' hz hσ, hval] at hL'
  cases hL'
  exact hv _

theorem Between.usualSizes {S Y Sc V D K : Type} {a a' : ℝ} {θ θ' θ'' : SiteEnv ℝ} {cs : List ℝ}
    {l : List (FittedEffect S Y Sc τ V D K)} (h : Between a a' θ θ' θ'')
    (h1 : UsualSizes kind cs l θ) (h2 : UsualSizes kind cs l θ') : UsualSizes kind cs l θ'' := by
  refine ⟨⟨?_, ?_⟩, ?_, ?_⟩
  · obtain ⟨o, ho⟩ := h1.trend.1
    obtain ⟨o', ho'⟩ := h2.trend.1
    obtain ⟨e1, e2⟩ := h "offset"
    rw [ho, ho'] at e2
    rw [ho] at e1
    refine ⟨a * o + a' * o', ?_⟩
    generalize θ'' "offset" = u at e1 e2
    obtain ⟨sh, da⟩ := u
    simp only at e1 e2
    rw [e1, e2]
    rfl
  · rw [(h _).2, List.length_zipWith, h1.trend.2, h2.trend.2, Nat.min_self]
  · rw [(h _).2, List.length_zipWith, h1.noise, h2.noise]; rfl
  · intro fe hfe
    rw [(h _).2, List.length_zipWith, h1.coefs fe hfe, h2.coefs fe hfe, Nat.min_self]

/-- The mean of the additive model at a date. -/
noncomputable def additiveMean (position : τ → ℤ) (kind : String → EffectKind) (days : τ → ℝ)
    (s : PiecewiseState ℝ τ) (cs : List ℝ) (y x : Frame String τ ℝ)
    (m : UniFit (UsualAttrs τ) (Scale ℝ) τ ℝ (AnyData ℝ) ℝ) (θ : SiteEnv ℝ) (t : τ) : ℝ :=
  usualTrend days s cs θ t + ((usedEffects kind m).map fun fe =>
    dot ((kind fe.name).features position (firstPosition position y.times) fe.cols t (rowAt x t))
      (θ (fe.name ++ "/coefs")).data).sum

/-- What a convex combination gains. -/
theorem usual_mix (hU : Usual position compile order days suggest p kind cfg)
    (hT : Training cfg y c X x) (hfit : uniFitData cfg y X = .ok m) {b : ℝ}
    (hb : p.priorScale = .scalar b)
    (hadd : ∀ fe ∈ usedEffects kind m, (kind fe.name).modeOf = "additive") :
    ∃ s cs, m.trend.st.2 = .piecewise (some s) ∧ s.cps = [cs] ∧
    ∀ (ns scale os : ℝ), 0 ≤ b → ∀ (a a' : ℝ), 0 ≤ a → 0 ≤ a' → a + a' = 1 →
    (∀ n x x', a * (kind n).prior x + a' * (kind n).prior x' ≤ (kind n).prior (a * x + a' * x')) →
    ∀ (θ θ' θ'' : SiteEnv ℝ) (L L' L'' : ℝ),
    UsualSizes kind cs (usedEffects kind m) θ → UsualSizes kind cs (usedEffects kind m) θ' →
    (θ "noise_scale").data = (θ' "noise_scale").data → Between a a' θ θ' θ'' →
    usualDensity kind .normal ns scale os m θ = .ok L →
    usualDensity kind .normal ns scale os m θ' = .ok L' →
    usualDensity kind .normal ns scale os m θ'' = .ok L'' →
    a * L + a' * L' ≤ L'' ∧
    (L'' ≤ a * L + a' * L' →
      (a * a' * ((θ "offset").data.headD 0 - (θ' "offset").data.headD 0) ^ 2 / (2 * os ^ 2) ≤ 0) ∧
      (∀ fe ∈ usedEffects kind m,
        ((mixList a a' (θ (fe.name ++ "/coefs")).data (θ' (fe.name ++ "/coefs")).data).map
          (kind fe.name).prior).sum ≤ a * ((θ (fe.name ++ "/coefs")).data.map (kind fe.name).prior).sum
            + a' * ((θ' (fe.name ++ "/coefs")).data.map (kind fe.name).prior).sum) ∧
      ∀ row ∈ y.rows,
        a * a' * (additiveMean position kind days s cs y x m θ row.time
          - additiveMean position kind days s cs y x m θ' row.time) ^ 2
          / (2 * siteScalar θ "noise_scale" ^ 2) ≤ 0) := by
  obtain ⟨s, cs, hs, hcs, hF'⟩ := usual_formula_any hU hT hfit hb
  refine ⟨s, cs, hs, hcs, ?_⟩
  have hF : ∀ (ns scale os : ℝ) (θ : SiteEnv ℝ) (L : ℝ), SingleSites cs θ →
      usualDensity kind .normal ns scale os m θ = .ok L →
      ∃ μ, s.offsetLoc = [μ] ∧
      L = normalLP μ os ((θ "offset").data.headD 0)
        + ((θ "changepoint_coefficients").data.map (laplaceLP 0 b)).sum
        + ((usedEffects kind m).map fun fe =>
            ((θ (fe.name ++ "/coefs")).data.map (kind fe.name).prior).sum).sum
        + halfNormalLP ns (siteScalar θ "noise_scale")
        + (y.rows.map fun row => normalLP (additiveMean position kind days s cs y x m θ row.time)
            (siteScalar θ "noise_scale") (row.val c)).sum := by
    intro ns scale os θ L hθ hL
    obtain ⟨μ, hμ, h⟩ := hF' .normal ns scale os θ L hθ hL
    refine ⟨μ, hμ, h.trans ?_⟩
    congr 1
    refine congrArg List.sum (List.map_congr_left fun row _ => ?_)
    unfold additiveMean
    simp only [obsLog]
    congr 3
    refine List.map_congr_left fun fe hfe => ?_
    rw [hadd fe hfe]
    rfl
  intro ns scale os hb0 a a' ha ha' haa hpr θ θ' θ'' L L' L'' hz hz' hσ hmix hL hL' hL''
  have hz'' := hmix.usualSizes hz hz'
  obtain ⟨μ, hμ, rfl⟩ := hF ns scale os θ L hz.trend hL
  obtain ⟨μ', hμ', rfl⟩ := hF ns scale os θ' L' hz'.trend hL'
  obtain ⟨μ'', hμ'', rfl⟩ := hF ns scale os θ'' L'' hz''.trend hL''
  obtain rfl : μ = μ' := by rw [hμ] at hμ'; simpa using hμ'
  obtain rfl : μ = μ'' := by rw [hμ] at hμ''; simpa using hμ''
  obtain ⟨o, ho⟩ := hz.trend.1
  obtain ⟨o', ho'⟩ := hz'.trend.1
  have hoo : (θ'' "offset").data.headD 0 = a * o + a' * o' := by
    rw [(hmix _).2, ho, ho']
    rfl
  have hn1 : siteScalar θ' "noise_scale" = siteScalar θ "noise_scale" := by
    unfold siteScalar
    rw [hσ]
  have hn2 : siteScalar θ'' "noise_scale" = siteScalar θ "noise_scale" := by
    unfold siteScalar
    rw [(hmix _).2, ← hσ]
    exact congrArg (fun l => l.headD 0) (mixList_self haa _)
  have hδ : (θ'' "changepoint_coefficients").data = mixList a a'
      (θ "changepoint_coefficients").data (θ' "changepoint_coefficients").data := (hmix _).2
  have hβ : ∀ n, (θ'' (n ++ "/coefs")).data
      = mixList a a' (θ (n ++ "/coefs")).data (θ' (n ++ "/coefs")).data := fun n => (hmix _).2
  have hlδ : (θ "changepoint_coefficients").data.length
      = (θ' "changepoint_coefficients").data.length := by rw [hz.trend.2, hz'.trend.2]
  have hlβ : ∀ fe ∈ usedEffects kind m, (θ (fe.name ++ "/coefs")).data.length
      = (θ' (fe.name ++ "/coefs")).data.length := fun fe h => by rw [hz.coefs fe h, hz'.coefs fe h]
  have hmean : ∀ t : τ, additiveMean position kind days s cs y x m θ'' t
      = a * additiveMean position kind days s cs y x m θ t
        + a' * additiveMean position kind days s cs y x m θ' t := by
    intro t
    unfold additiveMean usualTrend
    simp only [ho, ho', hoo, hδ, hβ, List.headD_cons]
    have e1 : ((usedEffects kind m).map fun fe => dot ((kind fe.name).features position
          (firstPosition position y.times) fe.cols t (rowAt x t))
          (mixList a a' (θ (fe.name ++ "/coefs")).data (θ' (fe.name ++ "/coefs")).data))
        = (usedEffects kind m).map fun fe => a * dot ((kind fe.name).features position
          (firstPosition position y.times) fe.cols t (rowAt x t)) (θ (fe.name ++ "/coefs")).data
          + a' * dot ((kind fe.name).features position
          (firstPosition position y.times) fe.cols t (rowAt x t)) (θ' (fe.name ++ "/coefs")).data :=
      List.map_congr_left fun fe h => dot_mix (hlβ fe h)
    rw [e1, List.sum_map_add, List.sum_map_mul_left, List.sum_map_mul_left]
    unfold trendAt
    rw [zip_mix hlδ]
    ring
  simp only [ho, ho', hoo, hn1, hn2, hδ, hβ, List.headD_cons, hmean]
  have g1 := normalLP_mix haa μ os o o'
  have g1' : 0 ≤ a * a' * (o - o') ^ 2 / (2 * os ^ 2) := by positivity
  have g2 := sum_mix_le (f := laplaceLP 0 b) (laplaceLP_mix ha ha' haa hb0) hlδ
  obtain ⟨g3, g3'⟩ := sum_gap (a := a) (a' := a') (l := usedEffects kind m)
    (f := fun fe => ((θ (fe.name ++ "/coefs")).data.map (kind fe.name).prior).sum)
    (g := fun fe => ((θ' (fe.name ++ "/coefs")).data.map (kind fe.name).prior).sum)
    (h := fun fe => ((mixList a a' (θ (fe.name ++ "/coefs")).data
      (θ' (fe.name ++ "/coefs")).data).map (kind fe.name).prior).sum)
    (fun fe h => sum_mix_le (hpr fe.name) (hlβ fe h))
  obtain ⟨g4, g4'⟩ := sum_gap (a := a) (a' := a') (l := y.rows)
    (f := fun row => normalLP (additiveMean position kind days s cs y x m θ row.time)
      (siteScalar θ "noise_scale") (row.val c))
    (g := fun row => normalLP (additiveMean position kind days s cs y x m θ' row.time)
      (siteScalar θ "noise_scale") (row.val c))
    (h := fun row => normalLP (a * additiveMean position kind days s cs y x m θ row.time
        + a' * additiveMean position kind days s cs y x m θ' row.time)
      (siteScalar θ "noise_scale") (row.val c))
    (by
      intro row _
      rw [normalLP_mix_loc haa]
      have : 0 ≤ a * a' * (additiveMean position kind days s cs y x m θ row.time
          - additiveMean position kind days s cs y x m θ' row.time) ^ 2
          / (2 * siteScalar θ "noise_scale" ^ 2) := by positivity
      linarith)
  have g5 : a * halfNormalLP ns (siteScalar θ "noise_scale")
      + a' * halfNormalLP ns (siteScalar θ "noise_scale")
      = halfNormalLP ns (siteScalar θ "noise_scale") := by rw [← add_mul, haa, one_mul]
  refine ⟨by linarith, fun hle => ⟨by linarith, g3' (by linarith), fun row hrow => ?_⟩⟩
  have := g4' (by linarith) row hrow
  simp only [normalLP_mix_loc haa] at this
  linarith

/-- **C94**: for a given noise level the log posterior of trend, additive seasonalities and additive
regressors is a concave function of the other parameters, if the priors are log-concave. -/
theorem C94_usual_concave (hU : Usual position compile order days suggest p kind cfg)
    (hT : Training cfg y c X x) (hfit : uniFitData cfg y X = .ok m) {b : ℝ}
    (hb : p.priorScale = .scalar b)
    (hadd : ∀ fe ∈ usedEffects kind m, (kind fe.name).modeOf = "additive") :
    ∃ s cs, m.trend.st.2 = .piecewise (some s) ∧ s.cps = [cs] ∧
    ∀ (ns scale os : ℝ), 0 ≤ b → (∀ n, ConcaveOn ℝ Set.univ (kind n).prior) →
    ∀ (a a' : ℝ), 0 ≤ a → 0 ≤ a' → a + a' = 1 → ∀ (θ θ' θ'' : SiteEnv ℝ) (L L' L'' : ℝ),
    UsualSizes kind cs (usedEffects kind m) θ → UsualSizes kind cs (usedEffects kind m) θ' →
    (θ "noise_scale").data = (θ' "noise_scale").data → Between a a' θ θ' θ'' →
    usualDensity kind .normal ns scale os m θ = .ok L →
    usualDensity kind .normal ns scale os m θ' = .ok L' →
    usualDensity kind .normal ns scale os m θ'' = .ok L'' → a * L + a' * L' ≤ L'' := by
  obtain ⟨s, cs, hs, hcs, hF⟩ := usual_mix hU hT hfit hb hadd
  refine ⟨s, cs, hs, hcs, ?_⟩
  intro ns scale os hb0 hpr a a' ha ha' haa θ θ' θ'' L L' L'' hz hz' hσ hmix hL hL' hL''
  exact (hF ns scale os hb0 a a' ha ha' haa (fun n x x' => by
    simpa only [smul_eq_mul] using (hpr n).2 (Set.mem_univ x) (Set.mem_univ x') ha ha' haa)
    θ θ' θ'' L L' L'' hz hz' hσ hmix hL hL' hL'').1

/-- **C94**: for a given noise level trend, additive seasonalities and additive regressors have at
most one best fit, if the priors are strictly log-concave (the default is, and that of a
seasonality).  The changepoint coefficients are unique if there is a training date between any two
changepoints. -/
theorem C94_usual_unique (hU : Usual position compile order days suggest p kind cfg)
    (hT : Training cfg y c X x) (hfit : uniFitData cfg y X = .ok m) {b : ℝ}
    (hb : p.priorScale = .scalar b)
    (hw : ∀ n ss mode s, kind n = .seasonal ss mode s → waves ss ≠ [])
    (hadd : ∀ fe ∈ usedEffects kind m, (kind fe.name).modeOf = "additive") :
    ∃ s cs, m.trend.st.2 = .piecewise (some s) ∧ s.cps = [cs] ∧
    ∀ (ns scale os : ℝ), 0 ≤ b → os ≠ 0 → (∀ n, StrictConcaveOn ℝ Set.univ (kind n).prior) →
    ∀ (θ θ' : SiteEnv ℝ), siteScalar θ "noise_scale" ≠ 0 → θ "noise_scale" = θ' "noise_scale" →
    BestGivenNoise kind cs .normal ns scale os m θ → BestGivenNoise kind cs .normal ns scale os m θ' →
    θ "offset" = θ' "offset" ∧
    (∀ fe ∈ usedEffects kind m, (θ (fe.name ++ "/coefs")).data = (θ' (fe.name ++ "/coefs")).data) ∧
    (∀ t ∈ y.times, usualTrend days s cs θ t = usualTrend days s cs θ' t) ∧
    (Covered (y.times.map (s.time.scaled days)) cs →
      (θ "changepoint_coefficients").data = (θ' "changepoint_coefficients").data) := by
  obtain ⟨s, cs, hs, hcs, hF⟩ := usual_mix hU hT hfit hb hadd
  obtain ⟨s', cs', hs', hcs', hD⟩ := usual_defined_of hU hT hfit hw
  rw [hs] at hs'
  cases hs'
  rw [hcs] at hcs'
  cases hcs'
  refine ⟨s, cs, hs, hcs, ?_⟩
  intro ns scale os hb0 hos hpr θ θ' hσ0 hσ hbest hbest'
  obtain ⟨hz, L, hL, hmax⟩ := hbest
  obtain ⟨hz', L', hL', hmax'⟩ := hbest'
  obtain rfl : L = L' := le_antisymm (hmax' θ L hz hσ hL) (hmax θ' L' hz' hσ.symm hL')
  let θ'' : SiteEnv ℝ := fun n => ⟨(θ n).shape,
    List.zipWith (fun x x' => 1 / 2 * x + 1 / 2 * x') (θ n).data (θ' n).data⟩
  have hmix : Between (1 / 2) (1 / 2) θ θ' θ'' := fun n => ⟨rfl, rfl⟩
  have hz'' := hmix.usualSizes hz hz'
  obtain ⟨L'', hL''⟩ := hD .normal ns scale os θ L hz.trend hL θ'' hz''
  have hle := hmax θ'' L'' hz'' (by
    have : (θ'' "noise_scale").data = (θ "noise_scale").data := by
      rw [(hmix _).2, ← hσ]
      exact mixList_self (by norm_num) _
    have h2 : (θ'' "noise_scale").shape = (θ "noise_scale").shape := rfl
    generalize θ'' "noise_scale" = u at this h2
    generalize θ "noise_scale" = w at this h2
    obtain ⟨_, _⟩ := u
    obtain ⟨_, _⟩ := w
    simp only at this h2
    rw [this, h2]) hL''
  have hstrict : ∀ n x x', x ≠ x' → 1 / 2 * (kind n).prior x + 1 / 2 * (kind n).prior x'
      < (kind n).prior (1 / 2 * x + 1 / 2 * x') := by
    intro n x x' hne
    simpa only [smul_eq_mul] using (hpr n).2 (Set.mem_univ x) (Set.mem_univ x') hne
      (by norm_num : (0 : ℝ) < 1 / 2) (by norm_num : (0 : ℝ) < 1 / 2) (by norm_num)
  have hconc : ∀ n x x', 1 / 2 * (kind n).prior x + 1 / 2 * (kind n).prior x'
      ≤ (kind n).prior (1 / 2 * x + 1 / 2 * x') := by
    intro n x x'
    by_cases hne : x = x'
    · subst hne
      rw [← add_mul, ← add_mul]
      norm_num
    · exact (hstrict n x x' hne).le
  obtain ⟨-, hgain⟩ := hF ns scale os hb0 (1 / 2) (1 / 2) (by norm_num) (by norm_num)
    (by norm_num) hconc θ θ' θ'' L L L'' hz hz' (by rw [hσ]) hmix hL hL' hL''
  obtain ⟨e1, e2, e3⟩ := hgain (by linarith)
  have sq0 : ∀ u v w : ℝ, w ≠ 0 → 1 / 2 * (1 / 2) * (u - v) ^ 2 / (2 * w ^ 2) ≤ 0 → u = v := by
    intro u v w hw h
    by_contra hne
    have h1 : 0 < (u - v) ^ 2 := by
      have := sub_ne_zero.2 hne
      positivity
    have h2 : 0 < w ^ 2 := by positivity
    have : 0 < 1 / 2 * (1 / 2) * (u - v) ^ 2 / (2 * w ^ 2) := by positivity
    linarith
  obtain ⟨o, ho⟩ := hz.trend.1
  obtain ⟨o', ho'⟩ := hz'.trend.1
  have hoo : o = o' := by
    rw [ho, ho'] at e1
    exact sq0 o o' os hos e1
  have hβ : ∀ fe ∈ usedEffects kind m,
      (θ (fe.name ++ "/coefs")).data = (θ' (fe.name ++ "/coefs")).data := fun fe h =>
    sum_mix_eq (hconc fe.name) (hstrict fe.name) (by rw [hz.coefs fe h, hz'.coefs fe h]) (e2 fe h)
  have htr : ∀ t ∈ y.times, usualTrend days s cs θ t = usualTrend days s cs θ' t := by
    intro t ht
    unfold Frame.times at ht
    obtain ⟨row, hrow, rfl⟩ := List.mem_map.1 ht
    have h := sq0 _ _ _ hσ0 (e3 row hrow)
    unfold additiveMean at h
    rw [List.map_congr_left (g := fun fe => dot ((kind fe.name).features position
        (firstPosition position y.times) fe.cols row.time (rowAt x row.time))
        (θ' (fe.name ++ "/coefs")).data) fun fe h => by rw [hβ fe h]] at h
    exact add_right_cancel h
  refine ⟨by rw [ho, ho', hoo], hβ, htr, fun hcov => ?_⟩
  refine coefs_determined hcov hz.trend.2 hz'.trend.2 ?_
  intro t ht
  obtain ⟨t', ht', rfl⟩ := List.mem_map.1 ht
  have := htr t' ht'
  unfold usualTrend trendAt at this
  rw [ho, ho', hoo] at this
  exact add_left_cancel this

end
end PV
