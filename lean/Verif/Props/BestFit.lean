import Verif.Lemmas.Coercive
import Verif.Props.UniqueFit

/-!
# C94: for a given noise level there is a best fit
-/

set_option linter.unusedSectionVars false

namespace PV
open Tensor Filter

section
variable {S Y Sc τ V D K : Type}

/-- Coordinates of the parameters: offset, changepoint coefficients, effect coefficients. -/
abbrev Coord (cs : List ℝ) (l : List (FittedEffect S Y Sc τ V D K)) : Type :=
  Unit ⊕ Fin cs.length ⊕ (Σ k : Fin l.length, Fin l[k].cols.length)

variable {cs : List ℝ} {l : List (FittedEffect S Y Sc τ V D K)}

/-- Changepoint coefficients of a vector. -/
def coordCps (v : Coord cs l → ℝ) : List ℝ := List.ofFn fun j => v (.inr (.inl j))

/-- Coefficients of the `k`-th effect. -/
def coordCoefs (v : Coord cs l → ℝ) (k : Fin l.length) : List ℝ :=
  List.ofFn fun j => v (.inr (.inr ⟨k, j⟩))

open Classical in
/-- The parameters of a vector. -/
noncomputable def siteOf (σ : ℝ) (v : Coord cs l → ℝ) : SiteEnv ℝ := fun n =>
  if n = "offset" then ⟨[1], [v (.inl ())]⟩
  else if n = "changepoint_coefficients" then ⟨[cs.length], coordCps v⟩
  else if n = "noise_scale" then ⟨[], [σ]⟩
  else if h : ∃ k : Fin l.length, n = l[k].name ++ "/coefs" then
    ⟨[l[h.choose].cols.length], coordCoefs v h.choose⟩
  else ⟨[], []⟩

theorem coefs_site_ne (n : String) {m : String} (h : '/' ∉ m.toList) : n ++ "/coefs" ≠ m := by
  rintro rfl
  simp at h

theorem siteOf_coefs (hn : (l.map FittedEffect.name).Nodup) (σ : ℝ) (v : Coord cs l → ℝ)
    (k : Fin l.length) : (siteOf σ v (l[k].name ++ "/coefs")).data = coordCoefs v k := by
  unfold siteOf
  rw [if_neg (coefs_site_ne _ (by decide)), if_neg (coefs_site_ne _ (by decide)),
    if_neg (coefs_site_ne _ (by decide)), dif_pos ⟨k, rfl⟩]
  have h : ∃ k' : Fin l.length, l[k].name ++ "/coefs" = l[k'].name ++ "/coefs" := ⟨k, rfl⟩
  have : h.choose = k := by
    have h1 := h.choose_spec
    generalize h.choose = k' at h1
    have h2 : l[k].name = l[k'].name := by simpa using h1
    have := List.nodup_iff_injective_get.1 hn (a₁ := ⟨k, by simp⟩) (a₂ := ⟨k', by simp⟩) (by simpa using h2)
    exact (Fin.ext (by simpa using this)).symm
  simp only
  rw [this]

theorem siteOf_sizes [LinearOrder τ] (hn : (l.map FittedEffect.name).Nodup) (σ : ℝ) (v : Coord cs l → ℝ) :
    ProphetSizes cs l (siteOf σ v) := by
  refine ⟨⟨⟨_, rfl⟩, by simp [siteOf, coordCps]⟩, by simp [siteOf], fun fe hfe => ?_⟩
  obtain ⟨k, hk, rfl⟩ := List.mem_iff_getElem.1 hfe
  have := siteOf_coefs hn σ v ⟨k, hk⟩
  simp only [Fin.getElem_fin] at this
  rw [this]
  simp [coordCoefs]

/-- The vector of parameters of the right sizes. -/
noncomputable def coordOf (θ : SiteEnv ℝ) : Coord cs l → ℝ
  | .inl _ => (θ "offset").data.headD 0
  | .inr (.inl j) => (θ "changepoint_coefficients").data.getD j 0
  | .inr (.inr ⟨k, j⟩) => (θ (l[k].name ++ "/coefs")).data.getD j 0

theorem ofFn_getD {α : Type} {l : List α} {n : Nat} (h : l.length = n) (d : α) :
    List.ofFn (fun j : Fin n => l.getD j d) = l := by
  subst h
  apply List.ext_getElem <;> simp

end

section
variable {τ : Type} [LinearOrder τ] {days : τ → ℝ}
  {suggest : List ℝ → Tensor ℝ → PyM (List ℝ × List ℝ)}
  {p : PiecewiseParams ℝ τ}

/-- **C94**: for every noise level there are parameters that no others of the right sizes beat, if
the log densities of the priors are continuous and tend to `-∞` (the default does).  The effects may
also be multiplicative. -/
theorem C94_exists (hsq : p.squeeze = true) {i r b : ℝ} (hi : p.interval = .scalar i)
    (hr : p.range = .scalar r) (hb : p.priorScale = .scalar b)
    {cfg : UniConfig (Option (PiecewiseState ℝ τ)) (Scale ℝ) τ ℝ (Tensor ℝ) ℝ}
    (htrend : cfg.trend = (piecewiseClass days suggest piecewisePredict p).new)
    {mode : String → String}
    (heff : ∀ e ∈ cfg.effects, e.effect.cls = linearClass (mode e.name))
    (hdef : cfg.default.cls = linearClass (mode "exogenous_variables_effect"))
    (hn : (cfg.effects.map EffectSpec.name).Nodup)
    (hres : "exogenous_variables_effect" ∉ cfg.effects.map EffectSpec.name)
    (hnt : "trend" ∉ cfg.effects.map EffectSpec.name)
    {y : Frame String τ ℝ} {c : String} (hyl : y.nlevels = 1) (hyc : y.cols = [c])
    (hys : y.rows.Pairwise fun a b => a.time < b.time)
    {X : Option (Frame String τ ℝ)} {x0 x : Frame String τ ℝ}
    (hx0 : cfg.fitFeatures (X.getD (Frame.ofIndex y.times)) = .ok x0)
    (hx : x0.locTimes y.times = .ok x) (hdates : DatesIn x y.times)
    {m : UniFit (Option (PiecewiseState ℝ τ)) (Scale ℝ) τ ℝ (Tensor ℝ) ℝ}
    (hfit : uniFitData cfg y X = .ok m) :
    ∃ s cs, m.trend.st.2 = some s ∧ s.cps = [cs] ∧
    (s.offsetLoc.length = 1 → s.rates ≠ [] →
    ∀ (ns scale os σ : ℝ) (prior : String → ℝ → ℝ), 0 < b → os ≠ 0 →
    (∀ n, Continuous (prior n)) → (∀ n, Tendsto (prior n) (cocompact ℝ) atBot) →
    ∃ θ L, ProphetSizes cs (kept m.fitted) θ ∧ (θ "noise_scale").data = [σ] ∧
      densityOf m ns scale os prior θ = .ok L ∧
      ∀ θ' L', ProphetSizes cs (kept m.fitted) θ' → (θ' "noise_scale").data = [σ] →
        densityOf m ns scale os prior θ' = .ok L' → L' ≤ L) := by
  obtain ⟨s, cs, hs, hcs, hF⟩ := C85_prophet hsq hi hr hb htrend heff hdef hn hres hnt hyl hyc hys
    hx0 hx hdates hfit
  obtain ⟨s', cs', hs', hcs', hD⟩ := C85_defined hsq hi hr hb htrend heff hdef hn hres hnt hyl hyc hys
    hx0 hx hdates hfit
  rw [hs] at hs'
  cases hs'
  rw [hcs] at hcs'
  cases hcs'
  refine ⟨s, cs, hs, hcs, ?_⟩
  intro hoff hrates ns scale os σ prior hb0 hos hpc hpt
  obtain ⟨μ, hμ⟩ := List.length_eq_one_iff.1 hoff
  have hn' : ((kept m.fitted).map FittedEffect.name).Nodup := by
    obtain ⟨yT, x0', x', -, -, -, -, -, hfe, -⟩ := uniFitData_ok hfit
    exact (C17_names hn hres hnt hfe).1.sublist (List.filter_sublist.map _)
  set l := kept m.fitted with hl
  -- the formula
  let tr : (Coord cs l → ℝ) → τ → ℝ := fun v t =>
    trendAt rampEntry (v (.inl ())) cs (coordCps v) (s.time.scaled days t)
  let ef : (Coord cs l → ℝ) → τ → Fin l.length → ℝ := fun v t k =>
    if mode l[k].name = "additive" then dot (l[k].cols.map (rowAt x t)) (coordCoefs v k)
    else tr v t * dot (l[k].cols.map (rowAt x t)) (coordCoefs v k)
  let R : (Coord cs l → ℝ) → ℝ := fun v =>
    (y.rows.map fun row => normalLP (tr v row.time + ∑ k, ef v row.time k) σ (row.val c)).sum
      + halfNormalLP ns σ
  let f : Coord cs l → ℝ → ℝ
    | .inl _ => normalLP μ os
    | .inr (.inl _) => laplaceLP 0 b
    | .inr (.inr ⟨k, _⟩) => prior l[k].name
  have key : ∀ (θ : SiteEnv ℝ) (L : ℝ) (v : Coord cs l → ℝ), ProphetSizes cs l θ →
      (θ "noise_scale").data = [σ] → (θ "offset").data = [v (.inl ())] →
      (θ "changepoint_coefficients").data = coordCps v →
      (∀ k : Fin l.length, (θ (l[k].name ++ "/coefs")).data = coordCoefs v k) →
      densityOf m ns scale os prior θ = .ok L → L = ∑ i, f i (v i) + R v := by
    intro θ L v hz hσ ho hδ hβ hL
    obtain ⟨μ', hμ', hL'⟩ := hF .normal ns scale os prior θ L hz.trend hL
    rw [hμ] at hμ'
    cases hμ'
    rw [hL']
    have hσ' : siteScalar θ "noise_scale" = σ := by
      unfold siteScalar
      rw [hσ]
      rfl
    have hsum : ∀ g : FittedEffect _ _ _ τ ℝ _ ℝ → ℝ, (l.map g).sum = ∑ k : Fin l.length, g l[k] := by
      intro g
      rw [← Fin.sum_univ_fun_getElem]
      rfl
    simp only [← hl, hσ', hδ, ho, List.headD_cons, hsum, hβ, obsLog]
    show _ = ∑ i : Unit ⊕ Fin cs.length ⊕ (Σ k : Fin l.length, Fin l[k].cols.length), f i (v i) + R v
    rw [Fintype.sum_sum_type, Fintype.sum_sum_type, Fintype.sum_sigma]
    simp only [Finset.univ_unique, Finset.sum_singleton, f, R, tr, ef]
    have e1 : ((coordCps v).map (laplaceLP 0 b)).sum = ∑ j : Fin cs.length, laplaceLP 0 b (v (.inr (.inl j))) := by
      rw [coordCps, List.map_ofFn, List.sum_ofFn]
      rfl
    have e2 : ∀ k, ((coordCoefs v k).map (prior l[k].name)).sum
        = ∑ j : Fin l[k].cols.length, prior l[k].name (v (.inr (.inr ⟨k, j⟩))) := by
      intro k
      rw [coordCoefs, List.map_ofFn, List.sum_ofFn]
      rfl
    simp only [e1, e2]
    ring_nf
  have hR : Continuous R := by
    refine Continuous.add (continuous_map_sum _ fun row _ => ?_) continuous_const
    have h1 : Continuous fun v => tr v row.time := by
      refine (continuous_apply _).add ?_
      exact continuous_zipWith_ofFn (fun u => continuous_id.mul continuous_const) _
        fun i => continuous_apply _
    refine (continuous_normalLP_loc _ _).comp (h1.add (continuous_finset_sum _ fun k _ => ?_))
    have h2 : Continuous fun v : Coord cs l → ℝ => dot (l[k].cols.map (rowAt x row.time)) (coordCoefs v k) :=
      continuous_zipWith_ofFn (fun u => continuous_const.mul continuous_id) _
        fun i => continuous_apply _
    simp only [ef]
    split
    · exact h2
    · exact h1.mul h2
  obtain ⟨v, hv⟩ := exists_best (f := f) (R := R)
    (C := (y.rows.map fun _ => -Real.log σ - Real.log (2 * Real.pi) / 2).sum + halfNormalLP ns σ) (by
      rintro (_ | _ | ⟨k, _⟩)
      · exact continuous_normalLP _ _
      · exact continuous_laplaceLP _ _
      · exact hpc _) (by
      rintro (_ | _ | ⟨k, _⟩)
      · exact tendsto_normalLP _ hos
      · exact tendsto_laplaceLP _ hb0
      · exact hpt _) hR (by
      intro v
      refine add_le_add_left (List.sum_le_sum fun row _ => normalLP_le _ _ _) _)
  have hsz := siteOf_sizes (cs := cs) (l := l) hn' σ v
  obtain ⟨L, hL⟩ := hD hoff hrates .normal ns scale os prior _ hsz
  refine ⟨siteOf σ v, L, hsz, rfl, hL, fun θ' L' hz hσ hL' => ?_⟩
  rw [key _ L v hsz rfl rfl rfl (siteOf_coefs hn' σ v) hL,
    key θ' L' (coordOf θ') hz hσ (by
      obtain ⟨o, ho⟩ := hz.trend.1
      simp [coordOf, ho]) (ofFn_getD hz.trend.2 0).symm
      (fun k => (ofFn_getD (hz.coefs _ (List.getElem_mem _)) 0).symm) hL']
  exact hv _

end

/-- The default prior of the coefficients meets the hypotheses. -/
example : Continuous (normalLP 0 0.1) ∧ Tendsto (normalLP 0 0.1) (cocompact ℝ) atBot :=
  ⟨continuous_normalLP _ _, tendsto_normalLP _ (by norm_num)⟩

end PV
