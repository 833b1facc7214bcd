import Mathlib.Tactic.FieldSimp
import Verif.Props.BestBalance
import Verif.Props.Stable

/-!
# C125: maximum a posteriori inference is penalised least squares

At a given noise level the best fit minimises the sum of squared errors plus a penalty: the squares of
the coefficients (ridge) and the absolute values of the changes of slope (lasso), weighed by the noise
level and the prior scales.
-/

set_option linter.unusedSectionVars false

namespace PV
open Tensor Filter

/-! ## Specification -/

section
variable {τ : Type} [LinearOrder τ]

/-- The sum of squared errors over the history. -/
noncomputable def squaredError (position : τ → ℤ) (kind : String → EffectKind) (days : τ → ℝ)
    (s : PiecewiseState ℝ τ) (cs : List ℝ) (y : Frame String τ ℝ) (c : String) (x : Frame String τ ℝ)
    (m : UniFit (UsualAttrs τ) (Scale ℝ) τ ℝ (AnyData ℝ) ℝ) (θ : SiteEnv ℝ) : ℝ :=
  (y.rows.map fun row => (row.val c - usualMean position kind days s cs y x m θ row.time) ^ 2).sum

/-- What parameters cost under the priors: the squared distance of the offset from `μ` over its squared
prior scale, twice the absolute slope changes over theirs, and the squared coefficients of every effect
over its squared prior scale. -/
noncomputable def price (kind : String → EffectKind) (m : UniFit (UsualAttrs τ) (Scale ℝ) τ ℝ (AnyData ℝ) ℝ)
    (μ os b : ℝ) (sd : String → ℝ) (θ : SiteEnv ℝ) : ℝ :=
  ((θ "offset").data.headD 0 - μ) ^ 2 / os ^ 2
    + 2 * ((θ "changepoint_coefficients").data.map fun v => |v|).sum / b
    + ((usedEffects kind m).map fun fe =>
        ((θ (fe.name ++ "/coefs")).data.map fun v => v ^ 2).sum / sd fe.name ^ 2).sum

end

/-! ## Sums -/

theorem sum_normal_zero (s : ℝ) : ∀ l : List ℝ, (l.map (normalLP 0 s)).sum
    = -((l.map fun v => v ^ 2).sum / (2 * s ^ 2))
      + (l.length : ℝ) * (-Real.log s - Real.log (2 * Real.pi) / 2)
  | [] => by simp
  | v :: l => by
    simp only [List.map_cons, List.sum_cons, sum_normal_zero s l, List.length_cons, Nat.cast_add, Nat.cast_one]
    unfold normalLP
    ring

theorem sum_laplace_zero (b : ℝ) : ∀ l : List ℝ, (l.map (laplaceLP 0 b)).sum
    = -((l.map fun v => |v|).sum / b) + (l.length : ℝ) * (-Real.log (2 * b))
  | [] => by simp
  | v :: l => by
    simp only [List.map_cons, List.sum_cons, sum_laplace_zero b l, List.length_cons, Nat.cast_add, Nat.cast_one]
    unfold laplaceLP
    rw [sub_zero]
    ring

theorem sum_normal_errors {α : Type} (M v : α → ℝ) (σ : ℝ) : ∀ l : List α,
    (l.map fun r => normalLP (M r) σ (v r)).sum = -((l.map fun r => (v r - M r) ^ 2).sum / (2 * σ ^ 2))
      + (l.length : ℝ) * (-Real.log σ - Real.log (2 * Real.pi) / 2)
  | [] => by simp
  | r :: l => by
    simp only [List.map_cons, List.sum_cons, sum_normal_errors M v σ l, List.length_cons, Nat.cast_add,
      Nat.cast_one]
    unfold normalLP
    ring

theorem sum_effects_split {α : Type} (f g h : α → ℝ) : ∀ {l : List α}, (∀ a ∈ l, f a = -(g a / 2) + h a) →
    (l.map f).sum = -((l.map g).sum / 2) + (l.map h).sum
  | [], _ => by simp
  | a :: l, hl => by
    simp only [List.map_cons, List.sum_cons, sum_effects_split f g h fun b hb => hl b (List.mem_cons_of_mem _ hb),
      hl a (List.mem_cons_self ..)]
    ring

/-! ## The theorem -/

section
variable {τ : Type} [LinearOrder τ]
variable {position : τ → ℤ} {compile : String → PyM (String → Bool)}
  {order : List String → List String} {days : τ → ℝ}
  {p : PiecewiseParams ℝ τ} {kind : String → EffectKind}
  {cfg : UniConfig (UsualAttrs τ) (Scale ℝ) τ ℝ (AnyData ℝ) ℝ} {y : Frame String τ ℝ} {c : String}
  {X : Option (Frame String τ ℝ)} {x : Frame String τ ℝ}
  {m : UniFit (UsualAttrs τ) (Scale ℝ) τ ℝ (AnyData ℝ) ℝ}

variable (hU : Usual position compile order days suggestLinear p kind cfg) (hp : Starts p)
  (hT : Training cfg y c X x) (hfit : uniFitData cfg y X = .ok m) {b : ℝ} (hb : p.priorScale = .scalar b)
  (hw : ∀ n ss mode s, kind n = .seasonal ss mode s → waves ss ≠ []) {sd : String → ℝ}
  (hk : ∀ fe ∈ usedEffects kind m, (kind fe.name).prior = normalLP 0 (sd fe.name))
  {s : PiecewiseState ℝ τ} {cs : List ℝ} (hs : m.trend.st.2 = .piecewise (some s)) (hcs : s.cps = [cs])
  {μ : ℝ} (hμ : s.offsetLoc = [μ]) {ns scale os σ : ℝ}
include hU hp hT hfit hb hw hk hs hcs hμ

/-- The log posterior is a constant minus the penalised sum of squares. -/
theorem density_penalised (hσ : σ ≠ 0) : ∃ C : ℝ, ∀ θ : SiteEnv ℝ,
    UsualSizes kind cs (usedEffects kind m) θ → siteScalar θ "noise_scale" = σ →
    usualDensity kind .normal ns scale os m θ
      = .ok (C - (squaredError position kind days s cs y c x m θ + σ ^ 2 * price kind m μ os b sd θ)
          / (2 * σ ^ 2)) := by
  obtain ⟨s', cs', hs', hcs', hF⟩ := usual_formula_any hU hT hfit hb
  rw [hs] at hs'
  cases hs'
  rw [hcs] at hcs'
  cases hcs'
  obtain ⟨s', cs', hs', hcs', hD⟩ := C95_defined hU hT hfit hb hw
  rw [hs] at hs'
  cases hs'
  rw [hcs] at hcs'
  cases hcs'
  refine ⟨(-Real.log os - Real.log (2 * Real.pi) / 2) + (cs.length : ℝ) * (-Real.log (2 * b))
    + ((usedEffects kind m).map fun fe => (((kind fe.name).size fe.cols : ℕ) : ℝ)
        * (-Real.log (sd fe.name) - Real.log (2 * Real.pi) / 2)).sum
    + halfNormalLP ns σ + (y.rows.length : ℝ) * (-Real.log σ - Real.log (2 * Real.pi) / 2), ?_⟩
  intro θ hz hN
  obtain ⟨L, hL⟩ := hD (usual_offset hU hp hT hfit hs).1 (usual_offset hU hp hT hfit hs).2 .normal ns scale os θ hz
  obtain ⟨μ', hμ', h⟩ := hF .normal ns scale os θ L hz.trend hL
  rw [hμ] at hμ'
  cases hμ'
  have h2 : usualDensity kind .normal ns scale os m θ = .ok L := hL
  rw [h2, h]
  congr 1
  have e1 := sum_normal_errors (fun row : Row String τ ℝ => usualMean position kind days s cs y x m θ row.time)
    (fun row => row.val c) σ y.rows
  have e2 := sum_laplace_zero b (θ "changepoint_coefficients").data
  have e3 := sum_effects_split (fun fe : FittedEffect (UsualAttrs τ) (Frame String τ ℝ) (Scale ℝ) τ ℝ (AnyData ℝ) ℝ =>
      ((θ (fe.name ++ "/coefs")).data.map (kind fe.name).prior).sum)
    (fun fe => ((θ (fe.name ++ "/coefs")).data.map fun v => v ^ 2).sum / sd fe.name ^ 2)
    (fun fe => (((kind fe.name).size fe.cols : ℕ) : ℝ) * (-Real.log (sd fe.name) - Real.log (2 * Real.pi) / 2))
    (l := usedEffects kind m) (by
      intro fe hfe
      rw [hk fe hfe, sum_normal_zero, hz.coefs fe hfe]
      ring)
  rw [hz.trend.2] at e2
  simp only [obsLog] at e1 ⊢
  rw [hN]
  have e4 : (y.rows.map fun row => normalLP (usualTrend days s cs θ row.time + ((usedEffects kind m).map fun fe =>
              combine (kind fe.name).modeOf (usualTrend days s cs θ row.time)
                (dot ((kind fe.name).features position (firstPosition position y.times) fe.cols row.time
                  (rowAt x row.time)) (θ (fe.name ++ "/coefs")).data)).sum) σ (row.val c)).sum = _ := e1
  rw [e4, e2, e3]
  unfold squaredError price normalLP
  field_simp
  ring

/-- **C125**: at a given noise level, parameters are a best fit exactly if they minimise the sum of
squared errors plus the squared noise level times their price. -/
theorem C125_penalised (hσ : σ ≠ 0) {θ : SiteEnv ℝ} (hz : UsualSizes kind cs (usedEffects kind m) θ)
    (hN : siteScalar θ "noise_scale" = σ) :
    (∃ L, BestIn kind .normal cs ns scale os (· = σ) m θ L) ↔
      ∀ θ', UsualSizes kind cs (usedEffects kind m) θ' → siteScalar θ' "noise_scale" = σ →
        squaredError position kind days s cs y c x m θ + σ ^ 2 * price kind m μ os b sd θ
          ≤ squaredError position kind days s cs y c x m θ' + σ ^ 2 * price kind m μ os b sd θ' := by
  obtain ⟨C, hC⟩ := density_penalised (ns := ns) (scale := scale) (os := os) hU hp hT hfit hb hw hk hs hcs hμ hσ
  have h2 : 0 < 2 * σ ^ 2 := by positivity
  constructor
  · rintro ⟨L, -, -, hL, hmax⟩ θ' hz' hN'
    have := hmax θ' _ hz' hN' (hC θ' hz' hN')
    rw [hC θ hz hN] at hL
    cases hL
    exact (div_le_div_iff_of_pos_right h2).1 (by linarith)
  · intro h
    refine ⟨_, hz, hN, hC θ hz hN, fun θ' L' hz' hN' hL' => ?_⟩
    rw [hC θ' hz' hN'] at hL'
    cases hL'
    have := (div_le_div_iff_of_pos_right h2).2 (h θ' hz' hN')
    linarith

theorem price_nonneg (hb0 : 0 ≤ b) (θ : SiteEnv ℝ) : 0 ≤ price kind m μ os b sd θ := by
  unfold price
  refine add_nonneg (add_nonneg (by positivity) (div_nonneg (mul_nonneg (by norm_num) ?_) hb0)) ?_
  · refine List.sum_nonneg fun v hv => ?_
    obtain ⟨w, -, rfl⟩ := List.mem_map.1 hv
    positivity
  · refine List.sum_nonneg fun v hv => ?_
    obtain ⟨fe, -, rfl⟩ := List.mem_map.1 hv
    refine div_nonneg (List.sum_nonneg fun v hv => ?_) (by positivity)
    obtain ⟨w, -, rfl⟩ := List.mem_map.1 hv
    positivity

/-- **C125**: the best fit is as good as every other explanation of the history, up to the price of that
explanation; and it costs no more than that explanation, up to the error the latter leaves. -/
theorem C125_oracle (hb0 : 0 ≤ b) (hσ : σ ≠ 0) {θ : SiteEnv ℝ} {L : ℝ}
    (hθ : BestIn kind .normal cs ns scale os (· = σ) m θ L) {θ' : SiteEnv ℝ}
    (hz' : UsualSizes kind cs (usedEffects kind m) θ') (hN' : siteScalar θ' "noise_scale" = σ) :
    squaredError position kind days s cs y c x m θ
        ≤ squaredError position kind days s cs y c x m θ' + σ ^ 2 * price kind m μ os b sd θ' ∧
      price kind m μ os b sd θ
        ≤ price kind m μ os b sd θ' + squaredError position kind days s cs y c x m θ' / σ ^ 2 := by
  have h := (C125_penalised hU hp hT hfit hb hw hk hs hcs hμ hσ hθ.1 hθ.2.1).1 ⟨L, hθ⟩ θ' hz' hN'
  have h1 := price_nonneg (os := os) hU hp hT hfit hb hw hk hs hcs hμ hb0 θ
  have h2 : 0 < σ ^ 2 := by positivity
  have h3 : 0 ≤ squaredError position kind days s cs y c x m θ := by
    refine List.sum_nonneg fun v hv => ?_
    obtain ⟨w, -, rfl⟩ := List.mem_map.1 hv
    positivity
  refine ⟨by nlinarith, ?_⟩
  have h4 : σ ^ 2 * price kind m μ os b sd θ
      ≤ squaredError position kind days s cs y c x m θ' + σ ^ 2 * price kind m μ os b sd θ' := by linarith
  have h5 : price kind m μ os b sd θ'
      + squaredError position kind days s cs y c x m θ' / σ ^ 2
      = (squaredError position kind days s cs y c x m θ' + σ ^ 2 * price kind m μ os b sd θ') / σ ^ 2 := by
    field_simp
    ring
  rw [h5, le_div_iff₀ h2]
  linarith

/-- **C125**: if some parameters explain the history without error, the mean squared error of the best
fit is at most the squared noise level times their price, divided by the number of observations. -/
theorem C125_exact (hb0 : 0 ≤ b) (hσ : σ ≠ 0) {θ : SiteEnv ℝ} {L : ℝ}
    (hθ : BestIn kind .normal cs ns scale os (· = σ) m θ L) {θ' : SiteEnv ℝ}
    (hz' : UsualSizes kind cs (usedEffects kind m) θ') (hN' : siteScalar θ' "noise_scale" = σ)
    (he : ∀ row ∈ y.rows, row.val c = usualMean position kind days s cs y x m θ' row.time) :
    squaredError position kind days s cs y c x m θ / y.rows.length
      ≤ σ ^ 2 * price kind m μ os b sd θ' / y.rows.length := by
  have h := (C125_oracle hU hp hT hfit hb hw hk hs hcs hμ hb0 hσ hθ hz' hN').1
  have h0 : squaredError position kind days s cs y c x m θ' = 0 := by
    refine List.sum_eq_zero fun v hv => ?_
    obtain ⟨row, hrow, rfl⟩ := List.mem_map.1 hv
    rw [he row hrow]
    ring
  rw [h0, zero_add] at h
  exact div_le_div_of_nonneg_right h (Nat.cast_nonneg _)

/-- **C125**: the more noise, the simpler the fit: of the best fits for two noise levels, the one for the
larger level has the smaller price and the larger sum of squared errors. -/
theorem C125_noise {σ' : ℝ} (hσ : 0 < σ) (hσ' : σ < σ') {θ θ' : SiteEnv ℝ} {L L' : ℝ}
    (hθ : BestIn kind .normal cs ns scale os (· = σ) m θ L)
    (hθ' : BestIn kind .normal cs ns scale os (· = σ') m θ' L') :
    price kind m μ os b sd θ' ≤ price kind m μ os b sd θ ∧
      squaredError position kind days s cs y c x m θ ≤ squaredError position kind days s cs y c x m θ' := by
  have upd : ∀ {ψ : SiteEnv ℝ} (v : ℝ), UsualSizes kind cs (usedEffects kind m) ψ →
      UsualSizes kind cs (usedEffects kind m) (Function.update ψ "noise_scale" ⟨[], [v]⟩) ∧
      siteScalar (Function.update ψ "noise_scale" ⟨[], [v]⟩) "noise_scale" = v ∧
      price kind m μ os b sd (Function.update ψ "noise_scale" ⟨[], [v]⟩) = price kind m μ os b sd ψ ∧
      squaredError position kind days s cs y c x m (Function.update ψ "noise_scale" ⟨[], [v]⟩)
        = squaredError position kind days s cs y c x m ψ := by
    intro ψ v hz
    have e1 : Function.update ψ "noise_scale" ⟨[], [v]⟩ "offset" = ψ "offset" := by simp
    have e2 : Function.update ψ "noise_scale" ⟨[], [v]⟩ "changepoint_coefficients"
        = ψ "changepoint_coefficients" := by simp
    have e3 : ∀ n : String, Function.update ψ "noise_scale" ⟨[], [v]⟩ (n ++ "/coefs") = ψ (n ++ "/coefs") :=
      fun n => Function.update_of_ne (coefs_site_ne _ (by decide)) _ _
    refine ⟨⟨⟨?_, ?_⟩, ?_, fun fe hfe => ?_⟩, ?_, ?_, ?_⟩
    · obtain ⟨o, ho⟩ := hz.trend.1
      exact ⟨o, e1.trans ho⟩
    · rw [e2]
      exact hz.trend.2
    · simp
    · rw [e3]
      exact hz.coefs fe hfe
    · simp [siteScalar]
    · unfold price
      simp only [e1, e2, e3]
    · unfold squaredError usualMean usualTrend
      simp only [e1, e2, e3]
  obtain ⟨z1, z2, z3, z4⟩ := upd σ hθ'.1
  obtain ⟨w1, w2, w3, w4⟩ := upd σ' hθ.1
  have h1 := (C125_penalised hU hp hT hfit hb hw hk hs hcs hμ hσ.ne' hθ.1 hθ.2.1).1 ⟨L, hθ⟩ _ z1 z2
  have h2 := (C125_penalised hU hp hT hfit hb hw hk hs hcs hμ (hσ.trans hσ').ne' hθ'.1 hθ'.2.1).1 ⟨L', hθ'⟩ _ w1 w2
  rw [z3, z4] at h1
  rw [w3, w4] at h2
  have h3 : 0 < σ' ^ 2 - σ ^ 2 := by nlinarith
  have h4 : price kind m μ os b sd θ' ≤ price kind m μ os b sd θ := by
    have : (σ' ^ 2 - σ ^ 2) * (price kind m μ os b sd θ' - price kind m μ os b sd θ) ≤ 0 := by linarith
    by_contra hc
    push Not at hc
    have := mul_pos h3 (sub_pos.2 hc)
    linarith
  refine ⟨h4, ?_⟩
  have h5 : σ ^ 2 * price kind m μ os b sd θ' ≤ σ ^ 2 * price kind m μ os b sd θ :=
    mul_le_mul_of_nonneg_left h4 (by positivity)
  linarith

/-- **C125**: the best fit leaves no more error than the constant at the centre of the offset's prior, and its
price is at most that error over the squared noise level. -/
theorem C125_cost (hb0 : 0 ≤ b) (hσ : σ ≠ 0) {θ : SiteEnv ℝ} {L : ℝ}
    (hθ : BestIn kind .normal cs ns scale os (· = σ) m θ L) :
    squaredError position kind days s cs y c x m θ ≤ (y.rows.map fun row => (row.val c - μ) ^ 2).sum ∧
    price kind m μ os b sd θ ≤ (y.rows.map fun row => (row.val c - μ) ^ 2).sum / σ ^ 2 := by
  obtain ⟨s', cs', hs', hcs', hC⟩ := usual_coords_any hU hT hfit hb hw
  rw [hs] at hs'
  cases hs'
  rw [hcs] at hcs'
  cases hcs'
  obtain ⟨-, -, hsz, -⟩ := hC (usual_offset hU hp hT hfit hs).1 (usual_offset hU hp hT hfit hs).2
  let v0 : Coords (usedSize kind) cs (usedEffects kind m) → ℝ := fun i => i.elim (fun _ => μ) fun _ => 0
  have hn : ((usedEffects kind m).map FittedEffect.name).Nodup :=
    ((List.filter_sublist (p := fun fe => (kind fe.name).used fe.cols) (l := m.fitted)).map _).nodup
      (usual_names hU hfit).1
  have hcps : ∀ v ∈ coordsCps v0, v = 0 := by
    intro v hv
    obtain ⟨j, rfl⟩ := (List.mem_ofFn' _ _).1 hv
    rfl
  have hco : ∀ k, ∀ v ∈ coordsCoefs v0 k, v = 0 := by
    intro k v hv
    obtain ⟨j, rfl⟩ := (List.mem_ofFn' _ _).1 hv
    rfl
  have hzip : ∀ (f : ℝ → ℝ → ℝ) (hf : ∀ a, f a 0 = 0) (l l' : List ℝ), (∀ v ∈ l', v = 0) →
      (List.zipWith f l l').sum = 0 := by
    intro f hf l l' h0
    induction l generalizing l' with
    | nil => simp
    | cons a l ih =>
      cases l' with
      | nil => simp
      | cons v l' =>
        rw [List.zipWith_cons_cons, List.sum_cons, h0 v (List.mem_cons_self ..), hf,
          ih l' fun w hw => h0 w (List.mem_cons_of_mem _ hw), add_zero]
  have hmean : ∀ t, usualMean position kind days s cs y x m (sitesOf FittedEffect.name σ v0) t = μ := by
    intro t
    rw [usualMean_sitesOf hn]
    unfold coordMean coordTrend trendAt
    rw [hzip _ (by simp) _ _ hcps, Finset.sum_eq_zero, add_zero, add_zero]
    · rfl
    · intro k _
      rw [show dot _ (coordsCoefs v0 k) = 0 from hzip _ (by simp) _ _ (hco k)]
      unfold combine
      split <;> simp
  have hprice : price kind m μ os b sd (sitesOf FittedEffect.name σ v0) = 0 := by
    have h1 : ((sitesOf FittedEffect.name σ v0) "offset").data.headD 0 = μ := rfl
    have h2 : ((sitesOf FittedEffect.name σ v0) "changepoint_coefficients").data = coordsCps v0 := rfl
    unfold price
    rw [h1, h2, List.sum_eq_zero, List.sum_eq_zero]
    · simp
    · intro v hv
      obtain ⟨fe, hfe, rfl⟩ := List.mem_map.1 hv
      obtain ⟨k, hk, rfl⟩ := List.mem_iff_getElem.1 hfe
      have e : (sitesOf FittedEffect.name σ v0 ((usedEffects kind m)[k].name ++ "/coefs")).data = _ :=
        sitesOf_coefs hn σ v0 ⟨k, hk⟩
      rw [e, List.sum_eq_zero, zero_div]
      intro v hv
      obtain ⟨w, hw, rfl⟩ := List.mem_map.1 hv
      rw [hco _ w hw]
      ring
    · intro v hv
      obtain ⟨w, hw, rfl⟩ := List.mem_map.1 hv
      rw [hcps w hw, abs_zero]
  have hse : squaredError position kind days s cs y c x m (sitesOf FittedEffect.name σ v0)
      = (y.rows.map fun row => (row.val c - μ) ^ 2).sum := by
    unfold squaredError
    simp only [hmean]
  have h := C125_oracle hU hp hT hfit hb hw hk hs hcs hμ hb0 hσ hθ (hsz v0 σ) rfl
  rw [hprice, hse, mul_zero, add_zero, zero_add] at h
  exact h

/-- **C125**: bounds known before fitting.  With `V` the sum of squared deviations of the history from the
centre of the offset's prior, the best fit has at most the squared error `V`, every coefficient is at most
its prior scale times the square root of `V` over the noise level, and the changes of slope sum to at most
the changepoint prior scale times `V` over twice the squared noise level. -/
theorem C125_bound (hb0 : 0 < b) (hsd : ∀ n, sd n ≠ 0) (hσ : σ ≠ 0) {θ : SiteEnv ℝ} {L : ℝ}
    (hθ : BestIn kind .normal cs ns scale os (· = σ) m θ L) :
    squaredError position kind days s cs y c x m θ ≤ (y.rows.map fun row => (row.val c - μ) ^ 2).sum ∧
    (∀ fe ∈ usedEffects kind m, ∀ v ∈ (θ (fe.name ++ "/coefs")).data,
      v ^ 2 ≤ sd fe.name ^ 2 * ((y.rows.map fun row => (row.val c - μ) ^ 2).sum / σ ^ 2)) ∧
    ((θ "changepoint_coefficients").data.map fun v => |v|).sum
      ≤ b * ((y.rows.map fun row => (row.val c - μ) ^ 2).sum / σ ^ 2) / 2 := by
  have h := C125_cost hU hp hT hfit hb hw hk hs hcs hμ hb0.le hσ hθ
  refine ⟨h.1, ?_, ?_⟩
  all_goals
    have hA : 0 ≤ ((θ "offset").data.headD 0 - μ) ^ 2 / os ^ 2 := by positivity
    have hB : 0 ≤ 2 * ((θ "changepoint_coefficients").data.map fun v => |v|).sum / b := by
      refine div_nonneg (mul_nonneg (by norm_num) (List.sum_nonneg fun v hv => ?_)) hb0.le
      obtain ⟨w, -, rfl⟩ := List.mem_map.1 hv
      positivity
    have hC : ∀ v ∈ (usedEffects kind m).map fun fe =>
        ((θ (fe.name ++ "/coefs")).data.map fun v => v ^ 2).sum / sd fe.name ^ 2, 0 ≤ v := by
      intro v hv
      obtain ⟨fe, -, rfl⟩ := List.mem_map.1 hv
      refine div_nonneg (List.sum_nonneg fun v hv => ?_) (by positivity)
      obtain ⟨w, -, rfl⟩ := List.mem_map.1 hv
      positivity
    have h2 := h.2
    unfold price at h2
  · intro fe hfe v hv
    have h3 := List.single_le_sum hC _ (List.mem_map_of_mem hfe)
    have h4 : v ^ 2 ≤ ((θ (fe.name ++ "/coefs")).data.map fun v => v ^ 2).sum := by
      refine List.single_le_sum (fun w hw => ?_) _ (List.mem_map_of_mem (f := fun v : ℝ => v ^ 2) hv)
      obtain ⟨w, -, rfl⟩ := List.mem_map.1 hw
      positivity
    have h5 : 0 < sd fe.name ^ 2 := by
      have := hsd fe.name
      positivity
    have h6 : ((θ (fe.name ++ "/coefs")).data.map fun v => v ^ 2).sum / sd fe.name ^ 2
        ≤ (y.rows.map fun row => (row.val c - μ) ^ 2).sum / σ ^ 2 := by linarith
    rw [div_le_iff₀ h5] at h6
    linarith
  · have h3 := List.sum_nonneg hC
    have h4 : 2 * ((θ "changepoint_coefficients").data.map fun v => |v|).sum / b
        ≤ (y.rows.map fun row => (row.val c - μ) ^ 2).sum / σ ^ 2 := by linarith
    rw [div_le_iff₀ hb0] at h4
    linarith

end

/-! ## Example

Observations 1, 3, 4 at the days 0, 1, 2 with an additive weekly seasonality and three additive columns. -/

noncomputable section

/-- Prior scales of the example. -/
def exSd125 (n : String) : ℝ := if n = "weekly" then 10 else 1

theorem exPrior125 (n : String) : (exKind96 n).prior = normalLP 0 (exSd125 n) := by
  unfold exKind96 exSd125
  split <;> rfl

/-- A best fit exists, and all theorems apply to it. -/
example : ∃ m s cs θ L θ' L', uniFitData exCfg96 exY85 (some exX97) = .ok m ∧
    m.trend.st.2 = .piecewise (some s) ∧ s.cps = [cs] ∧ s.offsetLoc = [1] ∧
    BestIn exKind96 .normal cs (1 / 20) 1 (1 / 10) (· = 1 / 20) m θ L ∧
    BestIn exKind96 .normal cs (1 / 20) 1 (1 / 10) (· = 1 / 10) m θ' L' ∧
    price exKind96 m 1 (1 / 10) 2 exSd125 θ' ≤ price exKind96 m 1 (1 / 10) 2 exSd125 θ ∧
    squaredError id exKind96 (fun n : ℤ => (n : ℝ)) s cs exY85 "y" exX97 m θ ≤ 13 ∧
    ((θ "changepoint_coefficients").data.map fun v => |v|).sum ≤ 5200 := by
  have hmono : StrictMono fun n : ℤ => (n : ℝ) := fun _ _ h => Int.cast_lt.2 h
  obtain ⟨m, hm⟩ := C98_fits exUsual96 exValid123 hmono exTraining123 (by simp [exY85]) (by rintro _ ⟨⟩ a ha; exact ha)
  obtain ⟨s, cs, hs, hcs, -⟩ := usual_coords exUsual96 exTraining123 hm (b := 2) rfl exWaves123
  have hpc : ∀ n, Continuous (exKind96 n).prior := fun n => by
    rw [exPrior125]
    exact continuous_normalLP _ _
  have hpt : ∀ n, Tendsto (exKind96 n).prior (cocompact ℝ) atBot := fun n => by
    rw [exPrior125]
    exact tendsto_normalLP _ (by unfold exSd125; split <;> norm_num)
  obtain ⟨θ, L, hθ⟩ := bestIn_exists exUsual96 (.inl rfl) exTraining123 hm (b := 2) rfl (by norm_num) exWaves123 hpc hpt hs hcs
    (1 / 20) 1 (1 / 20) (os := 1 / 10) (by norm_num)
  obtain ⟨θ', L', hθ'⟩ := bestIn_exists exUsual96 (.inl rfl) exTraining123 hm (b := 2) rfl (by norm_num) exWaves123 hpc hpt
    hs hcs (1 / 20) 1 (1 / 10) (os := 1 / 10) (by norm_num)
  have hμ : s.offsetLoc = [1] := by
    have := first_location exUsual96 rfl rfl hmono exTraining123 (by simp [exY85]) hm hs
    simpa [exY85] using this
  have h := C125_bound exUsual96 (.inl rfl) exTraining123 hm (b := 2) rfl exWaves123 (sd := exSd125)
    (fun fe _ => exPrior125 fe.name) hs hcs hμ (by norm_num) (by intro n; unfold exSd125; split <;> norm_num)
    (by norm_num) hθ
  have h' := C125_noise exUsual96 (.inl rfl) exTraining123 hm (b := 2) rfl exWaves123 (sd := exSd125)
    (fun fe _ => exPrior125 fe.name) hs hcs hμ (by norm_num) (by norm_num) hθ hθ'
  refine ⟨m, s, cs, θ, L, θ', L', hm, hs, hcs, hμ, hθ, hθ', h'.1, ?_, ?_⟩
  · have h1 := h.1
    simp only [exY85, List.map_cons, List.map_nil, List.sum_cons, List.sum_nil] at h1
    norm_num at h1
    exact h1
  · have h1 := h.2.2
    simp only [exY85, List.map_cons, List.map_nil, List.sum_cons, List.sum_nil] at h1
    norm_num at h1
    exact h1

end
end PV
