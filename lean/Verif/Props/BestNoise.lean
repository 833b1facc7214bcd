import Mathlib.Analysis.Normed.Module.FiniteDimension
import Mathlib.Topology.MetricSpace.HausdorffDistance
import Mathlib.Analysis.SpecialFunctions.Log.Basic
import Verif.Props.UsualExamples

/-!
# C99: when maximum a posteriori inference has an answer
-/

set_option linter.unusedSectionVars false

namespace PV
open Tensor Filter

theorem uniFitData_trend {S Sc D V K τ : Type} [LinearOrder τ] [Zero V] [Div K] {cfg : UniConfig S Sc τ V D K} {y : Frame String τ K}
    {X : Option (Frame String τ V)} {m : UniFit S Sc τ V D K} (h : uniFitData cfg y X = .ok m) :
    cfg.trend.fit (if cfg.discrete = true then y.mapVals fun _ v => v / cfg.scale else y) X cfg.unitScale
      = .ok m.trend := by
  unfold uniFitData at h
  simp only [Bind.bind, Except.bind] at h
  split at h
  · cases h
  rename_i tr htr
  repeat
    split at h
    · cases h
  cases h
  exact htr

/-! ## Least squares -/

/-- If a linear model cannot give `y` exactly, its squared error stays away from zero. -/
theorem squared_gap {ι : Type} [Fintype ι] {n : Nat} (A : (ι → ℝ) →ₗ[ℝ] (Fin n → ℝ)) {y : Fin n → ℝ}
    (h : ∀ v, A v ≠ y) : ∃ δ, 0 < δ ∧ ∀ v, δ ≤ ∑ i, (A v i - y i) ^ 2 := by
  have hc : IsClosed ((LinearMap.range A : Submodule ℝ (Fin n → ℝ)) : Set (Fin n → ℝ)) :=
    Submodule.closed_of_finiteDimensional _
  have hne : ((LinearMap.range A : Submodule ℝ (Fin n → ℝ)) : Set (Fin n → ℝ)).Nonempty := ⟨0, Submodule.zero_mem _⟩
  have hpos := (hc.notMem_iff_infDist_pos hne (x := y)).1 (by
    rintro ⟨v, hv⟩
    exact h v hv)
  refine ⟨_, pow_pos hpos 2, fun v => ?_⟩
  have hd := Metric.infDist_le_dist_of_mem (x := y) (y := A v)
    (s := ((LinearMap.range A : Submodule ℝ (Fin n → ℝ)) : Set (Fin n → ℝ))) ⟨v, rfl⟩
  have hsum0 : 0 ≤ ∑ i, (A v i - y i) ^ 2 := Finset.sum_nonneg fun i _ => sq_nonneg _
  have hd2 : dist y (A v) ≤ Real.sqrt (∑ i, (A v i - y i) ^ 2) := by
    refine (dist_pi_le_iff (Real.sqrt_nonneg _)).2 fun i => ?_
    rw [Real.dist_eq, ← Real.sqrt_sq_eq_abs]
    refine Real.sqrt_le_sqrt ?_
    have := Finset.single_le_sum (f := fun i => (A v i - y i) ^ 2) (fun i _ => sq_nonneg _) (Finset.mem_univ i)
    calc (y i - A v i) ^ 2 = (A v i - y i) ^ 2 := by ring
      _ ≤ _ := this
  calc _ ≤ Real.sqrt (∑ i, (A v i - y i) ^ 2) ^ 2 := by
        refine pow_le_pow_left₀ hpos.le (hd.trans hd2) 2
    _ = _ := Real.sq_sqrt hsum0

/-- The gain of a smaller noise level is more than eaten up by errors that cannot be avoided. -/
theorem tendsto_noise {n : ℝ} (hn : 0 < n) {δ : ℝ} (hδ : 0 < δ) :
    Tendsto (fun u : ℝ => -(n * u) - δ / 2 * Real.exp (-(2 * u))) (cocompact ℝ) atBot := by
  rw [cocompact_eq_atBot_atTop, tendsto_sup]
  constructor
  · have h1 : Tendsto (fun u : ℝ => u * (-n - δ * u)) atBot atBot := by
      refine Tendsto.atBot_mul_atTop₀ tendsto_id ?_
      refine tendsto_atTop_add_const_left _ (-n) ?_
      have : Tendsto (fun u : ℝ => δ * u) atBot atBot := tendsto_id.const_mul_atBot hδ
      exact tendsto_neg_atBot_atTop.comp this
    refine tendsto_atBot_mono' _ ?_ h1
    filter_upwards [eventually_le_atBot (0 : ℝ)] with u hu
    have := Real.quadratic_le_exp_of_nonneg (x := -(2 * u)) (by linarith)
    nlinarith
  · have h1 : Tendsto (fun u : ℝ => -(n * u)) atTop atBot :=
      tendsto_neg_atTop_atBot.comp (tendsto_id.const_mul_atTop hn)
    refine tendsto_atBot_mono (fun u => ?_) h1
    have := Real.exp_pos (-(2 * u))
    nlinarith [mul_pos (half_pos hδ) this]

section
variable {τ : Type} [LinearOrder τ]
variable {position : τ → ℤ} {compile : String → PyM (String → Bool)}
  {order : List String → List String} {days : τ → ℝ}
  {p : PiecewiseParams ℝ τ} {kind : String → EffectKind}
  {cfg : UniConfig (UsualAttrs τ) (Scale ℝ) τ ℝ (AnyData ℝ) ℝ} {y : Frame String τ ℝ} {c : String}
  {X : Option (Frame String τ ℝ)} {x : Frame String τ ℝ}
  {m : UniFit (UsualAttrs τ) (Scale ℝ) τ ℝ (AnyData ℝ) ℝ}

/-! ## Specification -/

/-- The mean at a date: trend plus effects (the formula of C95). -/
noncomputable def usualMean (position : τ → ℤ) (kind : String → EffectKind) (days : τ → ℝ)
    (s : PiecewiseState ℝ τ) (cs : List ℝ) (y x : Frame String τ ℝ)
    (m : UniFit (UsualAttrs τ) (Scale ℝ) τ ℝ (AnyData ℝ) ℝ) (θ : SiteEnv ℝ) (t : τ) : ℝ :=
  usualTrend days s cs θ t + ((usedEffects kind m).map fun fe =>
    combine (kind fe.name).modeOf (usualTrend days s cs θ t)
      (dot ((kind fe.name).features position (firstPosition position y.times) fe.cols t (rowAt x t))
        (θ (fe.name ++ "/coefs")).data)).sum

/-- The parameters reproduce the training data without any error. -/
def FitsExactly (position : τ → ℤ) (kind : String → EffectKind) (days : τ → ℝ) (s : PiecewiseState ℝ τ)
    (cs : List ℝ) (y : Frame String τ ℝ) (c : String) (x : Frame String τ ℝ)
    (m : UniFit (UsualAttrs τ) (Scale ℝ) τ ℝ (AnyData ℝ) ℝ) (θ : SiteEnv ℝ) : Prop :=
  ∀ row ∈ y.rows, usualMean position kind days s cs y x m θ row.time = row.val c

/-- Maximum a posteriori: no parameters of the right sizes, with whatever positive noise level, are
more probable. -/
def BestOfAll (kind : String → EffectKind) (lik : Likelihood) (cs : List ℝ) (ns scale os : ℝ)
    (m : UniFit (UsualAttrs τ) (Scale ℝ) τ ℝ (AnyData ℝ) ℝ) (θ : SiteEnv ℝ) : Prop :=
  UsualSizes kind cs (usedEffects kind m) θ ∧ 0 < siteScalar θ "noise_scale" ∧
    ∃ L, usualDensity kind lik ns scale os m θ = .ok L ∧
    ∀ θ₂ L₂, UsualSizes kind cs (usedEffects kind m) θ₂ → 0 < siteScalar θ₂ "noise_scale" →
      usualDensity kind lik ns scale os m θ₂ = .ok L₂ → L₂ ≤ L

/-! ## The model in coordinates -/

theorem usualMean_coords {s : PiecewiseState ℝ τ} {cs : List ℝ} {θ : SiteEnv ℝ}
    {v : Coords (usedSize kind) cs (usedEffects kind m) → ℝ} (ho : (θ "offset").data = [v (.inl ())])
    (hδ : (θ "changepoint_coefficients").data = coordsCps v)
    (hβ : ∀ k : Fin (usedEffects kind m).length,
      (θ ((usedEffects kind m)[k].name ++ "/coefs")).data = coordsCoefs v k) (t : τ) :
    usualMean position kind days s cs y x m θ t
      = coordMean position (firstPosition position y.times) kind days x s cs v t := by
  have hsum : ∀ g : FittedEffect _ _ _ τ ℝ _ ℝ → ℝ, ((usedEffects kind m).map g).sum
      = ∑ k : Fin (usedEffects kind m).length, g (usedEffects kind m)[k] := by
    intro g
    rw [← Fin.sum_univ_fun_getElem]
    rfl
  simp only [usualMean, usualTrend, ho, hδ, List.headD_cons, hsum, hβ]
  rfl

theorem usualMean_coordsOf {s : PiecewiseState ℝ τ} {cs : List ℝ} {θ : SiteEnv ℝ}
    (hz : UsualSizes kind cs (usedEffects kind m) θ) (t : τ) :
    usualMean position kind days s cs y x m θ t
      = coordMean position (firstPosition position y.times) kind days x s cs
        (coordsOf FittedEffect.name θ : Coords (usedSize kind) cs (usedEffects kind m) → ℝ) t :=
  usualMean_coords (by
    obtain ⟨o, ho⟩ := hz.trend.1
    simp [coordsOf, ho]) (ofFn_getD hz.trend.2 0).symm
    (fun k => (ofFn_getD (hz.coefs _ (List.getElem_mem _)) 0).symm) t

theorem usualMean_sitesOf (hn : ((usedEffects kind m).map FittedEffect.name).Nodup)
    {s : PiecewiseState ℝ τ} {cs : List ℝ} (σ : ℝ)
    (v : Coords (usedSize kind) cs (usedEffects kind m) → ℝ) (t : τ) :
    usualMean position kind days s cs y x m (sitesOf FittedEffect.name σ v) t
      = coordMean position (firstPosition position y.times) kind days x s cs v t :=
  usualMean_coords rfl rfl (sitesOf_coefs hn σ v) t

theorem mixList_ofFn {n : Nat} (a a' : ℝ) (f g : Fin n → ℝ) :
    mixList a a' (List.ofFn f) (List.ofFn g) = List.ofFn fun i => a * f i + a' * g i := by
  apply List.ext_getElem <;> simp [mixList]

theorem coordMean_linear {s : PiecewiseState ℝ τ} {cs : List ℝ} {p0 : ℤ}
    {l : List (FittedEffect (UsualAttrs τ) (Frame String τ ℝ) (Scale ℝ) τ ℝ (AnyData ℝ) ℝ)}
    (hadd : ∀ fe ∈ l, (kind fe.name).modeOf = "additive") (a a' : ℝ)
    (v w : Coords (usedSize kind) cs l → ℝ) (t : τ) :
    coordMean position p0 kind days x s cs (a • v + a' • w) t
      = a * coordMean position p0 kind days x s cs v t + a' * coordMean position p0 kind days x s cs w t := by
  have e1 : ∀ k : Fin l.length, coordsCoefs (a • v + a' • w) k
      = mixList a a' (coordsCoefs v k) (coordsCoefs w k) := fun k => (mixList_ofFn a a' _ _).symm
  have e2 : coordsCps (a • v + a' • w) = mixList a a' (coordsCps v) (coordsCps w) :=
    (mixList_ofFn a a' _ _).symm
  have e3 : ∀ (k : Fin l.length) (u z : ℝ), combine (kind l[k].name).modeOf u z = z := by
    intro k u z
    rw [hadd l[k] (List.getElem_mem _)]
    rfl
  have e4 : ∀ (k : Fin l.length) (f : List ℝ), dot f (mixList a a' (coordsCoefs v k) (coordsCoefs w k))
      = a * dot f (coordsCoefs v k) + a' * dot f (coordsCoefs w k) := fun k f =>
    dot_mix (by simp [coordsCoefs])
  simp only [coordMean, coordTrend, e1, e2, e3, e4, Finset.sum_add_distrib, ← Finset.mul_sum]
  unfold trendAt
  rw [zip_mix (by simp [coordsCps])]
  simp only [Pi.add_apply, Pi.smul_apply, smul_eq_mul]
  ring

/-- The additive model at the training dates is a linear function of the coordinates. -/
noncomputable def designMap {s : PiecewiseState ℝ τ} {cs : List ℝ} {p0 : ℤ}
    {l : List (FittedEffect (UsualAttrs τ) (Frame String τ ℝ) (Scale ℝ) τ ℝ (AnyData ℝ) ℝ)}
    (hadd : ∀ fe ∈ l, (kind fe.name).modeOf = "additive") (ts : List τ) :
    (Coords (usedSize kind) cs l → ℝ) →ₗ[ℝ] (Fin ts.length → ℝ) where
  toFun v := fun i => coordMean position p0 kind days x s cs v ts[i]
  map_add' v w := by
    funext i
    have := coordMean_linear (position := position) (days := days) (x := x) (s := s) (p0 := p0) hadd 1 1 v w ts[i]
    simpa using this
  map_smul' a v := by
    funext i
    have := coordMean_linear (position := position) (days := days) (x := x) (s := s) (p0 := p0) hadd a 0 v 0 ts[i]
    simpa using this

/-- The log likelihood in terms of the squared errors. -/
theorem lik_squares {α : Type} (f g : α → ℝ) (σ : ℝ) : ∀ l : List α,
    (l.map fun r => normalLP (f r) σ (g r)).sum
      = -((l.map fun r => (g r - f r) ^ 2).sum / (2 * σ ^ 2)) - l.length * Real.log σ
        - l.length * (Real.log (2 * Real.pi) / 2)
  | [] => by simp
  | r :: l => by
    simp only [List.map_cons, List.sum_cons, lik_squares f g σ l, List.length_cons, Nat.cast_add, Nat.cast_one]
    unfold normalLP
    ring

theorem squares_fin {α : Type} (f : α → ℝ) (l : List α) : (l.map f).sum = ∑ i : Fin l.length, f l[i] := by
  rw [← Fin.sum_univ_fun_getElem]
  rfl

theorem halfNormalLP_le (ns σ : ℝ) :
    halfNormalLP ns σ ≤ Real.log 2 + (-Real.log ns - Real.log (2 * Real.pi) / 2) :=
  add_le_add_right (normalLP_le _ _ _) _

/-- Errors that cannot be avoided. -/
theorem unavoidable {s : PiecewiseState ℝ τ} {cs : List ℝ}
    (hadd : ∀ fe ∈ usedEffects kind m, (kind fe.name).modeOf = "additive")
    (hno : ∀ v : Coords (usedSize kind) cs (usedEffects kind m) → ℝ, ∃ row ∈ y.rows,
      coordMean position (firstPosition position y.times) kind days x s cs v row.time ≠ row.val c) :
    ∃ δ, 0 < δ ∧ ∀ v : Coords (usedSize kind) cs (usedEffects kind m) → ℝ, δ ≤ (y.rows.map fun row =>
      (row.val c - coordMean position (firstPosition position y.times) kind days x s cs v row.time) ^ 2).sum := by
  have hl : y.times.length = y.rows.length := by simp [Frame.times]
  obtain ⟨δ, h0, h⟩ := squared_gap (designMap (position := position) (days := days) (x := x) (s := s)
    (cs := cs) (p0 := firstPosition position y.times) hadd y.times)
    (y := fun i => (y.rows[i.1]'(by rw [← hl]; exact i.2)).val c) (by
      intro v hv
      obtain ⟨row, hrow, hne⟩ := hno v
      obtain ⟨k, hk, rfl⟩ := List.mem_iff_getElem.1 hrow
      have := congrFun hv ⟨k, by rw [hl]; exact hk⟩
      refine hne (Eq.trans ?_ this)
      have e : (y.times[k]'(by rw [hl]; exact hk)) = y.rows[k].time := by simp [Frame.times]
      rw [← e]
      rfl)
  refine ⟨δ, h0, fun v => (h v).trans (le_of_eq ?_)⟩
  rw [squares_fin]
  refine Fintype.sum_equiv (finCongr hl) _ _ fun i => ?_
  simp only [designMap, LinearMap.coe_mk, AddHom.coe_mk, finCongr_apply, Fin.getElem_fin, Fin.val_cast]
  have : y.times[i.1] = (y.rows[i.1]'(by rw [← hl]; exact i.2)).time := by simp [Frame.times]
  rw [this]
  ring

/-- **C99**: if the training data cannot be fitted exactly, maximum a posteriori inference has an
answer: some parameters with a positive noise level are at least as probable as all others. -/
theorem C99_exists (hU : Usual position compile order days suggestLinear p kind cfg)
    (hp : Starts p) (hT : Training cfg y c X x) (hfit : uniFitData cfg y X = .ok m) {b : ℝ}
    (hb : p.priorScale = .scalar b) (hb0 : 0 < b)
    (hw : ∀ n ss mode s, kind n = .seasonal ss mode s → waves ss ≠ [])
    (hpc : ∀ n, Continuous (kind n).prior) (hpt : ∀ n, Tendsto (kind n).prior (cocompact ℝ) atBot)
    (hadd : ∀ fe ∈ usedEffects kind m, (kind fe.name).modeOf = "additive") :
    ∃ s cs, m.trend.st.2 = .piecewise (some s) ∧ s.cps = [cs] ∧
    ∀ ns scale os : ℝ, os ≠ 0 →
    (¬ ∃ θ, UsualSizes kind cs (usedEffects kind m) θ ∧ FitsExactly position kind days s cs y c x m θ) →
    ∃ θ, BestOfAll kind .normal cs ns scale os m θ := by
  obtain ⟨s, cs, hs, hcs, hC⟩ := usual_coords hU hT hfit hb hw
  obtain ⟨hoff, hrates⟩ := usual_offset hU hp hT hfit hs
  refine ⟨s, cs, hs, hcs, ?_⟩
  intro ns scale os hos hno
  obtain ⟨μ, -, hsz, hval, hall⟩ := hC hoff hrates
  have hn' : ((usedEffects kind m).map FittedEffect.name).Nodup :=
    (usual_names hU hfit).1.sublist (List.filter_sublist.map _)
  set l := usedEffects kind m with hl
  obtain ⟨δ, hδ, hgap⟩ := unavoidable (position := position) (days := days) (x := x) (s := s) (cs := cs)
    (y := y) (c := c) hadd (by
      intro v
      by_contra hcon
      push Not at hcon
      exact hno ⟨_, hsz v 1, fun row hrow => (usualMean_sitesOf hn' 1 v _).trans (hcon row hrow)⟩)
  have hN : 0 < (y.rows.length : ℝ) := by
    have := List.length_pos_of_ne_nil hT.some
    exact_mod_cast this
  let E : (Coords (usedSize kind) cs l → ℝ) → ℝ := fun v => (y.rows.map fun row =>
      (row.val c - coordMean position (firstPosition position y.times) kind days x s cs v row.time) ^ 2).sum
  have hE : Continuous E := continuous_map_sum _ fun row _ =>
    (continuous_const.sub (continuous_coordMean _)).pow 2
  let f : Unit ⊕ Coords (usedSize kind) cs l → ℝ → ℝ
    | .inl _ => fun u => -(y.rows.length * u) - δ / 2 * Real.exp (-(2 * u))
    | .inr i => coordPrior kind μ os b cs l i
  let R : (Unit ⊕ Coords (usedSize kind) cs l → ℝ) → ℝ := fun w =>
    halfNormalLP ns (Real.exp (w (.inl ()))) - (E (fun i => w (.inr i)) - δ) / 2 * Real.exp (-(2 * w (.inl ())))
      - y.rows.length * (Real.log (2 * Real.pi) / 2)
  have hform : ∀ (v : Coords (usedSize kind) cs l → ℝ) (u : ℝ),
      usualDensity kind .normal ns scale os m (sitesOf FittedEffect.name (Real.exp u) v)
        = .ok (∑ i, f i ((Sum.elim (fun _ => u) v : Unit ⊕ Coords (usedSize kind) cs l → ℝ) i)
          + R (Sum.elim (fun _ => u) v)) := by
    intro v u
    rw [hval]
    congr 1
    have hP : ∑ i, f i ((Sum.elim (fun _ => u) v : Unit ⊕ Coords (usedSize kind) cs l → ℝ) i)
        = (-(y.rows.length * u) - δ / 2 * Real.exp (-(2 * u)))
          + ∑ i, coordPrior kind μ os b cs l i (v i) := by
      rw [Fintype.sum_sum_type, Fintype.sum_unique]
      rfl
    have hR : R (Sum.elim (fun _ => u) v) = halfNormalLP ns (Real.exp u)
        - (E v - δ) / 2 * Real.exp (-(2 * u)) - y.rows.length * (Real.log (2 * Real.pi) / 2) := rfl
    rw [hP, hR, lik_squares, Real.log_exp]
    generalize ∑ i, coordPrior kind μ os b cs l i (v i) = P
    change P + (_ + (-(E v / _) - _ - _)) = _
    have : Real.exp (-(2 * u)) = 1 / Real.exp u ^ 2 := by
      rw [← Real.exp_nat_mul, one_div, ← Real.exp_neg]
      norm_num
    rw [this]
    ring
  obtain ⟨w, hbest⟩ := exists_best (f := f) (R := R)
    (C := Real.log 2 + (-Real.log ns - Real.log (2 * Real.pi) / 2)
      - y.rows.length * (Real.log (2 * Real.pi) / 2))
    (by
      rintro (_ | i)
      · simp only [f]
        fun_prop
      · exact continuous_coordPrior hpc i)
    (by
      rintro (_ | i)
      · exact tendsto_noise hN hδ
      · exact tendsto_coordPrior hos hb0 hpt i)
    (by
      have h1 : Continuous fun w : Unit ⊕ Coords (usedSize kind) cs l → ℝ =>
          halfNormalLP ns (Real.exp (w (.inl ()))) :=
        continuous_const.add ((continuous_normalLP _ _).comp (Real.continuous_exp.comp (continuous_apply _)))
      have h2 : Continuous fun w : Unit ⊕ Coords (usedSize kind) cs l → ℝ => E fun i => w (.inr i) :=
        hE.comp (continuous_pi fun i => continuous_apply _)
      exact (h1.sub (((h2.sub continuous_const).div_const _).mul (by fun_prop))).sub continuous_const)
    (by
      intro w
      have h1 := halfNormalLP_le ns (Real.exp (w (.inl ())))
      have h2 := hgap fun i => w (.inr i)
      have h3 : 0 ≤ (E (fun i => w (.inr i)) - δ) / 2 * Real.exp (-(2 * w (.inl ()))) := by
        have : 0 ≤ E (fun i => w (.inr i)) - δ := sub_nonneg.2 h2
        positivity
      simp only [R]
      linarith)
  have hsplit : ∀ w : Unit ⊕ Coords (usedSize kind) cs l → ℝ,
      (Sum.elim (fun _ => w (.inl ())) fun i => w (.inr i)) = w := by
    intro w
    funext i
    rcases i with _ | i <;> rfl
  refine ⟨sitesOf FittedEffect.name (Real.exp (w (.inl ()))) fun i => w (.inr i), hsz _ _, Real.exp_pos _, _,
    hform _ _, fun θ₂ L₂ hz hσ hL₂ => ?_⟩
  obtain ⟨σ, hσ'⟩ := List.length_eq_one_iff.1 hz.noise
  have hσ0 : siteScalar θ₂ "noise_scale" = σ := by
    unfold siteScalar
    rw [hσ']
    rfl
  rw [hσ0] at hσ
  rw [hall ns scale os σ θ₂ hz hσ', ← Real.exp_log hσ, hform] at hL₂
  cases hL₂
  have := hbest (Sum.elim (fun _ => Real.log σ) (coordsOf FittedEffect.name θ₂))
  rw [hsplit w]
  exact this

/-- Another noise level. -/
def withNoise (θ : SiteEnv ℝ) (σ : ℝ) : SiteEnv ℝ := fun n => if n = "noise_scale" then ⟨[], [σ]⟩ else θ n

theorem withNoise_sizes {S Y Sc V D K : Type} {cs : List ℝ} {l : List (FittedEffect S Y Sc τ V D K)}
    {θ : SiteEnv ℝ} (h : UsualSizes kind cs l θ) (σ : ℝ) : UsualSizes kind cs l (withNoise θ σ) := by
  refine ⟨h.trend, rfl, fun fe hfe => ?_⟩
  unfold withNoise
  rw [if_neg (coefs_site_ne _ (by decide))]
  exact h.coefs fe hfe

/-- **C99**: if some parameters fit the training data exactly, the log posterior of these parameters
grows beyond all bounds as the noise level shrinks. -/
theorem C99_unbounded (hU : Usual position compile order days suggestLinear p kind cfg)
    (hp : Starts p) (hT : Training cfg y c X x) (hfit : uniFitData cfg y X = .ok m) {b : ℝ}
    (hb : p.priorScale = .scalar b)
    (hw : ∀ n ss mode s, kind n = .seasonal ss mode s → waves ss ≠ []) :
    ∃ s cs, m.trend.st.2 = .piecewise (some s) ∧ s.cps = [cs] ∧
    ∀ (ns scale os : ℝ) (θ : SiteEnv ℝ), UsualSizes kind cs (usedEffects kind m) θ →
    FitsExactly position kind days s cs y c x m θ →
    ∀ B : ℝ, ∃ ε, 0 < ε ∧ ∀ σ, 0 < σ → σ ≤ ε → ∃ L,
      usualDensity kind .normal ns scale os m (withNoise θ σ) = .ok L ∧ B ≤ L := by
  obtain ⟨s, cs, hs, hcs, hC⟩ := usual_coords hU hT hfit hb hw
  obtain ⟨hoff, hrates⟩ := usual_offset hU hp hT hfit hs
  refine ⟨s, cs, hs, hcs, ?_⟩
  intro ns scale os θ hz hexact B
  obtain ⟨μ, -, hsz, hval, hall⟩ := hC hoff hrates
  have hN : 0 < (y.rows.length : ℝ) := by
    have := List.length_pos_of_ne_nil hT.some
    exact_mod_cast this
  have hcoords : ∀ σ, (coordsOf FittedEffect.name (withNoise θ σ) :
      Coords (usedSize kind) cs (usedEffects kind m) → ℝ) = coordsOf FittedEffect.name θ := by
    intro σ
    funext i
    rcases i with _ | _ | ⟨k, j⟩
    · rfl
    · rfl
    · simp only [coordsOf, withNoise]
      rw [if_neg (coefs_site_ne _ (by decide))]
  have hform : ∀ σ, usualDensity kind .normal ns scale os m (withNoise θ σ)
      = .ok (∑ i, coordPrior kind μ os b cs (usedEffects kind m) i (coordsOf FittedEffect.name θ i)
        + (halfNormalLP ns σ + (- y.rows.length * Real.log σ
          - y.rows.length * (Real.log (2 * Real.pi) / 2)))) := by
    intro σ
    rw [hall ns scale os σ _ (withNoise_sizes hz σ) rfl, hval, hcoords, lik_squares]
    congr 3
    have : (y.rows.map fun row => (row.val c - coordMean position (firstPosition position y.times) kind
        days x s cs (coordsOf FittedEffect.name θ : Coords (usedSize kind) cs (usedEffects kind m) → ℝ)
        row.time) ^ 2).sum = 0 := by
      refine List.sum_eq_zero fun z hz' => ?_
      obtain ⟨row, hrow, rfl⟩ := List.mem_map.1 hz'
      rw [← usualMean_coordsOf hz, hexact row hrow]
      ring
    rw [this]
    ring
  generalize ∑ i, coordPrior kind μ os b cs (usedEffects kind m) i (coordsOf FittedEffect.name θ i) = P at hform
  let Q : ℝ := P + (Real.log 2 - 1 / (2 * ns ^ 2) - Real.log ns - Real.log (2 * Real.pi) / 2)
    - y.rows.length * (Real.log (2 * Real.pi) / 2)
  refine ⟨min 1 (Real.exp ((Q - B) / y.rows.length)), by positivity, fun σ h0 h1 => ⟨_, hform σ, ?_⟩⟩
  have h2 : σ ≤ 1 := h1.trans (min_le_left _ _)
  have h3 : Real.log σ ≤ (Q - B) / y.rows.length :=
    (Real.log_le_iff_le_exp h0).2 (h1.trans (min_le_right _ _))
  rw [le_div_iff₀ hN] at h3
  have h4 : Real.log 2 - 1 / (2 * ns ^ 2) - Real.log ns - Real.log (2 * Real.pi) / 2 ≤ halfNormalLP ns σ := by
    unfold halfNormalLP normalLP
    have : (σ - 0) ^ 2 / (2 * ns ^ 2) ≤ 1 / (2 * ns ^ 2) := by
      apply div_le_div_of_nonneg_right _ (by positivity)
      nlinarith
    linarith
  simp only [Q] at h3
  linarith

/-- **C99**: maximum a posteriori inference has an answer exactly if no parameters fit the training
data exactly. -/
theorem C99_iff (hU : Usual position compile order days suggestLinear p kind cfg)
    (hp : Starts p) (hT : Training cfg y c X x) (hfit : uniFitData cfg y X = .ok m) {b : ℝ}
    (hb : p.priorScale = .scalar b) (hb0 : 0 < b)
    (hw : ∀ n ss mode s, kind n = .seasonal ss mode s → waves ss ≠ [])
    (hpc : ∀ n, Continuous (kind n).prior) (hpt : ∀ n, Tendsto (kind n).prior (cocompact ℝ) atBot)
    (hadd : ∀ fe ∈ usedEffects kind m, (kind fe.name).modeOf = "additive") :
    ∃ s cs, m.trend.st.2 = .piecewise (some s) ∧ s.cps = [cs] ∧
    ∀ ns scale os : ℝ, os ≠ 0 → ((∃ θ, BestOfAll kind .normal cs ns scale os m θ) ↔
      ¬ ∃ θ, UsualSizes kind cs (usedEffects kind m) θ ∧ FitsExactly position kind days s cs y c x m θ) := by
  obtain ⟨s, cs, hs, hcs, h1⟩ := C99_exists hU hp hT hfit hb hb0 hw hpc hpt hadd
  obtain ⟨s', cs', hs', hcs', h2⟩ := C99_unbounded hU hp hT hfit hb hw
  rw [hs] at hs'
  cases hs'
  rw [hcs] at hcs'
  cases hcs'
  refine ⟨s, cs, hs, hcs, fun ns scale os hos => ⟨?_, h1 ns scale os hos⟩⟩
  rintro ⟨θ, -, -, L, -, hmax⟩ ⟨θ', hz, hexact⟩
  obtain ⟨ε, hε, h⟩ := h2 ns scale os θ' hz hexact (L + 1)
  obtain ⟨L', hL', hle⟩ := h ε hε le_rfl
  have := hmax _ L' (withNoise_sizes hz ε) hε hL'
  linarith

/-- **C99**: the target is constant in training: it is fitted exactly, and maximum a posteriori
inference has no answer. -/
theorem C99_constant (hU : Usual position compile order days suggestLinear p kind cfg)
    (hp : Starts p) (hT : Training cfg y c X x) (hfit : uniFitData cfg y X = .ok m) {b : ℝ}
    (hb : p.priorScale = .scalar b)
    (hw : ∀ n ss mode s, kind n = .seasonal ss mode s → waves ss ≠ []) {k : ℝ}
    (hk : ∀ row ∈ y.rows, row.val c = k) :
    ∃ s cs, m.trend.st.2 = .piecewise (some s) ∧ s.cps = [cs] ∧
    (∃ θ, UsualSizes kind cs (usedEffects kind m) θ ∧ FitsExactly position kind days s cs y c x m θ) ∧
    ∀ ns scale os : ℝ, ¬ ∃ θ, BestOfAll kind .normal cs ns scale os m θ := by
  obtain ⟨s, cs, hs, hcs, hC⟩ := usual_coords hU hT hfit hb hw
  obtain ⟨hoff, hrates⟩ := usual_offset hU hp hT hfit hs
  obtain ⟨μ, -, hsz, -⟩ := hC hoff hrates
  have hn' : ((usedEffects kind m).map FittedEffect.name).Nodup :=
    (usual_names hU hfit).1.sublist (List.filter_sublist.map _)
  let v : Coords (usedSize kind) cs (usedEffects kind m) → ℝ
    | .inl _ => k
    | .inr _ => 0
  have hmean : ∀ t, coordMean position (firstPosition position y.times) kind days x s cs v t = k := by
    intro t
    have h0 : ∀ n (f : List ℝ) (ρ : ℝ → ℝ → ℝ), (∀ u, ρ u 0 = 0) →
        (List.zipWith ρ f (List.ofFn fun _ : Fin n => (0 : ℝ))).sum = 0 := by
      intro n f ρ hρ
      refine List.sum_eq_zero fun z hz => ?_
      rw [List.mem_iff_getElem] at hz
      obtain ⟨i, hi, rfl⟩ := hz
      simp [hρ]
    have h1 : coordTrend days s cs v t = k := by
      unfold coordTrend trendAt coordsCps
      simp only [v]
      rw [h0 _ _ _ (by simp)]
      simp
    unfold coordMean
    rw [h1]
    have h2 : ∀ j : Fin (usedEffects kind m).length, combine (kind (usedEffects kind m)[j].name).modeOf k
        (dot ((kind (usedEffects kind m)[j].name).features position (firstPosition position y.times)
          (usedEffects kind m)[j].cols t (rowAt x t)) (coordsCoefs v j)) = 0 := by
      intro j
      have : dot ((kind (usedEffects kind m)[j].name).features position (firstPosition position y.times)
          (usedEffects kind m)[j].cols t (rowAt x t)) (coordsCoefs v j) = 0 :=
        h0 _ _ _ (by simp)
      rw [this]
      unfold combine
      split <;> simp
    rw [Finset.sum_congr rfl fun j _ => h2 j]
    simp
  have hex : ∃ θ, UsualSizes kind cs (usedEffects kind m) θ ∧ FitsExactly position kind days s cs y c x m θ :=
    ⟨_, hsz v 1, fun row hrow => by rw [usualMean_sitesOf hn', hmean, hk row hrow]⟩
  refine ⟨s, cs, hs, hcs, hex, fun ns scale os => ?_⟩
  rintro ⟨θ, -, -, L, -, hmax⟩
  obtain ⟨θ', hz, hexact⟩ := hex
  obtain ⟨s', cs', hs', hcs', h2⟩ := C99_unbounded hU hp hT hfit hb hw
  rw [hs] at hs'
  cases hs'
  rw [hcs] at hcs'
  cases hcs'
  obtain ⟨ε, hε, h⟩ := h2 ns scale os θ' hz hexact (L + 1)
  obtain ⟨L', hL', hle⟩ := h ε hε le_rfl
  have := hmax _ L' (withNoise_sizes hz ε) hε hL'
  linarith

end

/-! ## Examples -/

noncomputable section

/-- A target that is 2 on all days. -/
def exY99 : Frame String Int ℝ :=
  ⟨1, ["y"], [⟨[], 0, fun _ => 2⟩, ⟨[], 1, fun _ => 2⟩, ⟨[], 2, fun _ => 2⟩]⟩

theorem exTraining99 : Training exCfg95 exY99 "y" (some exX97) exX97 where
  flat := rfl
  column := rfl
  sorted := by simp [exY99]
  some := by simp [exY99]
  features := ⟨exX97, rfl, by
    unfold Frame.locTimes
    rw [if_pos (by simp [exX97, exY99, Frame.times])]
    simp [exX97, exY99, Frame.times]⟩
  dates := ⟨rfl, by simp [exX97], by simp [exY99, Frame.times], by simp [exX97, exY99, Frame.times],
    by simp [exX97]⟩

example : ∃ m, uniFitData exCfg95 exY99 (some exX97) = .ok m ∧
    ∃ s cs, m.trend.st.2 = .piecewise (some s) ∧ s.cps = [cs] ∧
    ¬ ∃ θ, BestOfAll exKind95 .normal cs (1 / 2) 1 (1 / 10) m θ := by
  obtain ⟨m, hm⟩ := C98_fits exUsual95 exValid98 (fun _ _ h => Int.cast_lt.2 h) exTraining99
    (by simp [exY99]) (by rintro _ ⟨⟩ a ha; exact ha)
  obtain ⟨s, cs, hs, hcs, -, h⟩ := C99_constant exUsual95 (.inl rfl) exTraining99 hm (b := 2) rfl exWaves98 (k := 2)
    (by simp [exY99])
  exact ⟨m, hm, s, cs, hs, hcs, h _ _ _⟩

/-- A trend alone. -/
def exCfg99 : UniConfig (UsualAttrs ℤ) (Scale ℝ) ℤ ℝ (AnyData ℝ) ℝ := { exCfg95 with effects := [] }

theorem exUsual99 : Usual id someCompile id (fun n : ℤ => (n : ℝ)) suggestLinear exP85 exKind95 exCfg99 where
  trend := rfl
  squeeze := rfl
  interval := ⟨1, rfl⟩
  range := ⟨1, rfl⟩
  effects := by
    intro e he
    cases he
  default := rfl
  nodup := List.nodup_nil
  reserved := by simp [exCfg99]
  notTrend := by simp [exCfg99]

theorem exTraining99' : Training exCfg99 exY85 "y" none (Frame.ofIndex [0, 1, 2]) where
  flat := rfl
  column := rfl
  sorted := by simp [exY85]
  some := by simp [exY85]
  features := ⟨Frame.ofIndex [0, 1, 2], by simp [exCfg99, exCfg95, exY85, Frame.times], by
    unfold Frame.locTimes
    rw [if_pos (by simp [Frame.ofIndex, exY85, Frame.times])]
    simp [Frame.ofIndex, exY85, Frame.times]⟩
  dates := ⟨rfl, by simp [Frame.ofIndex], by simp [exY85, Frame.times],
    by simp [Frame.ofIndex, exY85, Frame.times], by simp [Frame.ofIndex]⟩

theorem exUsed99 {y : Frame String ℤ ℝ} (hT : Training exCfg99 y "y" none (Frame.ofIndex [0, 1, 2])) {m}
    (hm : uniFitData exCfg99 y none = .ok m) : usedEffects exKind95 m = [] := by
  obtain ⟨yT, x0, x', hyT, htf, hx0, hx, -, hfe, -⟩ := uniFitData_ok hm
  have hnil : m.fitted = [] := by
    obtain ⟨x1, h1, h2⟩ := hT.features
    rw [hx0] at h1
    cases h1
    rw [hx] at h2
    cases h2
    obtain ⟨fes, hf, -, hcase⟩ := fitEffects_ok.1 hfe
    cases hf
    rcases hcase with ⟨-, h⟩ | ⟨eff, h, -⟩
    · exact h
    · exact absurd (by simp [Frame.ofIndex, remainingColumns]) h
  simp [usedEffects, hnil]

theorem exState99 {y : Frame String ℤ ℝ} {m} (hm : uniFitData exCfg99 y none = .ok m)
    {s s' : PiecewiseState ℝ ℤ} (hs : m.trend.st.2 = .piecewise (some s))
    (hs' : piecewiseFit (fun n : Int => (n : ℝ)) suggestLinear exP85 y = .ok s') : s = s' := by
  have h1 := uniFitData_trend hm
  rw [if_neg (by simp [exCfg99, exCfg95])] at h1
  rw [exUsual99.trend] at h1
  obtain ⟨e, he, he'⟩ := embed_fit_ok h1
  obtain ⟨-, s₀, hs₀, hpf⟩ := piecewise_fit_state he
  rw [he'] at hs
  simp only [EffectObj.embed, hs₀] at hs
  cases hs
  rw [hs'] at hpf
  cases hpf
  rfl

theorem exFits99 : ∃ m, uniFitData exCfg99 exY85 none = .ok m :=
  C98_fits exUsual99 ⟨exValid98.interval, exValid98.range, .inl rfl, exValid98.seasons,
    by intro e he; cases he⟩ (fun _ _ h => Int.cast_lt.2 h) exTraining99' (by simp [exY85])
    (by rintro _ ⟨⟩)

/-- 1, 3, 4 is not on a line. -/
theorem exNoFit99 {m} (hm : uniFitData exCfg99 exY85 none = .ok m) {s : PiecewiseState ℝ ℤ} {cs : List ℝ}
    (hs : m.trend.st.2 = .piecewise (some s)) (hcs : s.cps = [cs]) :
    ¬ ∃ θ, UsualSizes exKind95 cs (usedEffects exKind95 m) θ ∧
      FitsExactly id exKind95 (fun n : ℤ => (n : ℝ)) s cs exY85 "y" (Frame.ofIndex [0, 1, 2]) m θ := by
  rintro ⟨θ, hz, hexact⟩
  have hused := exUsed99 exTraining99' hm
  cases exState99 hm hs exFit85
  cases hcs
  obtain ⟨δ, hδ⟩ := List.length_eq_one_iff.1 hz.trend.2
  unfold FitsExactly usualMean usualTrend at hexact
  simp only [hused, hδ, List.map_nil, List.sum_nil, add_zero, exY85, List.mem_cons, List.not_mem_nil, or_false,
    forall_eq_or_imp, forall_eq, trendAt, rampEntry, exS85, TrendTime.scaled] at hexact
  obtain ⟨h1, h2, h3⟩ := hexact
  norm_num at h1 h2 h3
  linarith

/-- So there is an answer. -/
example : ∃ m, uniFitData exCfg99 exY85 none = .ok m ∧
    ∃ s cs, m.trend.st.2 = .piecewise (some s) ∧ s.cps = [cs] ∧
    ∃ θ, BestOfAll exKind95 .normal cs (1 / 2) 1 (1 / 10) m θ := by
  obtain ⟨m, hm⟩ := exFits99
  obtain ⟨s, cs, hs, hcs, h⟩ := C99_exists exUsual99 (.inl rfl) exTraining99' hm (b := 2) rfl (by norm_num)
    exWaves98 exContinuous98 exTendsto98 (by rw [exUsed99 exTraining99' hm]; intro fe hfe; cases hfe)
  exact ⟨m, hm, s, cs, hs, hcs, h _ _ _ (by norm_num) (exNoFit99 hm hs hcs)⟩

end
end PV
