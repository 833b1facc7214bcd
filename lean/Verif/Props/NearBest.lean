import Mathlib.Tactic.FieldSimp
import Mathlib.Tactic.Ring
import Mathlib.Tactic.LinearCombination
import Verif.Props.PanelPenalised

/-!
# C132: parameters that are nearly optimal fit nearly as the optimum

Maximum a posteriori inference runs an optimiser for a given number of steps; it returns parameters that are at
best nearly optimal. With normal observations, normal priors and additive effects, what is missing to the
best log posterior bounds the distance to the best fit: of all fitted means of the history, of the offset and
of all coefficients.
-/

set_option linter.unusedSectionVars false

namespace PV
open Tensor Filter Matrix

/-! ## Sums over mixtures -/

theorem sum_sq_mix {a a' : ℝ} (h : a + a' = 1) : ∀ l l' : List ℝ, l.length = l'.length →
    ((mixList a a' l l').map fun v => v ^ 2).sum = a * (l.map fun v => v ^ 2).sum + a' * (l'.map fun v => v ^ 2).sum
      - a * a' * (List.zipWith (fun v v' => (v' - v) ^ 2) l l').sum
  | [], [], _ => by simp [mixList]
  | [], _ :: _, h => by simp at h
  | _ :: _, [], h => by simp at h
  | v :: l, v' :: l', hl => by
    have ih := sum_sq_mix h l l' (by simpa using hl)
    unfold mixList at ih ⊢
    simp only [List.zipWith_cons_cons, List.map_cons, List.sum_cons, ih]
    obtain rfl : a' = 1 - a := by linarith
    ring

theorem sum_abs_mix {a a' : ℝ} (ha : 0 ≤ a) (ha' : 0 ≤ a') : ∀ l l' : List ℝ, l.length = l'.length →
    ((mixList a a' l l').map fun v => |v|).sum ≤ a * (l.map fun v => |v|).sum + a' * (l'.map fun v => |v|).sum
  | [], [], _ => by simp [mixList]
  | [], _ :: _, h => by simp at h
  | _ :: _, [], h => by simp at h
  | v :: l, v' :: l', hl => by
    have ih := sum_abs_mix ha ha' l l' (by simpa using hl)
    unfold mixList at ih ⊢
    simp only [List.zipWith_cons_cons, List.map_cons, List.sum_cons]
    have h1 := abs_add_le (a * v) (a' * v')
    rw [abs_mul, abs_mul, abs_of_nonneg ha, abs_of_nonneg ha'] at h1
    linarith

theorem sum_off_mix {a a' : ℝ} (h : a + a' = 1) : ∀ μ l l' : List ℝ, l.length = μ.length → l'.length = μ.length →
    (List.zipWith (fun μ o => (o - μ) ^ 2) μ (mixList a a' l l')).sum
      = a * (List.zipWith (fun μ o => (o - μ) ^ 2) μ l).sum + a' * (List.zipWith (fun μ o => (o - μ) ^ 2) μ l').sum
      - a * a' * (List.zipWith (fun v v' => (v' - v) ^ 2) l l').sum
  | [], [], [], _, _ => by simp [mixList]
  | _, _ :: _, [], h, h' => by rw [← h'] at h; simp at h
  | _, [], _ :: _, h, h' => by rw [← h'] at h; simp at h
  | _ :: _, [], [], h, _ => by simp at h
  | [], _ :: _, _ :: _, h, _ => by simp at h
  | μ :: μs, v :: l, v' :: l', hl, hl' => by
    have ih := sum_off_mix h μs l l' (by simpa using hl) (by simpa using hl')
    unfold mixList at ih ⊢
    simp only [List.zipWith_cons_cons, List.sum_cons, ih]
    obtain rfl : a' = 1 - a := by linarith
    ring

theorem sum_map_mix {α : Type} {a a' k : ℝ} {f f' f'' g : α → ℝ} : ∀ {l : List α},
    (∀ e ∈ l, f'' e = a * f e + a' * f' e - k * g e) →
    (l.map f'').sum = a * (l.map f).sum + a' * (l.map f').sum - k * (l.map g).sum
  | [], _ => by simp
  | e :: l, h => by
    simp only [List.map_cons, List.sum_cons, sum_map_mix fun e he => h e (List.mem_cons_of_mem _ he),
      h e (List.mem_cons_self ..)]
    ring

theorem sum_err_mix {α : Type} {a a' : ℝ} (h : a + a' = 1) {v M M' M'' : α → ℝ} (hM : ∀ r, M'' r = a * M r + a' * M' r)
    (l : List α) : (l.map fun r => (v r - M'' r) ^ 2).sum
      = a * (l.map fun r => (v r - M r) ^ 2).sum + a' * (l.map fun r => (v r - M' r) ^ 2).sum
        - a * a' * (l.map fun r => (M' r - M r) ^ 2).sum := by
  refine sum_map_mix fun r _ => ?_
  rw [hM]
  obtain rfl : a' = 1 - a := by linarith
  ring

theorem weighed_mix {τ : Type} {n : Nat} {σ : Fin n → ℝ} {C : Matrix (Fin n) (Fin n) ℝ} {a a' : ℝ} (h : a + a' = 1)
    {obs M M' M'' : Fin n → τ → ℝ} (hM : ∀ i t, M'' i t = a * M i t + a' * M' i t) (ts : List τ) :
    weighedError (panelCovariance σ C) ts obs M''
      = a * weighedError (panelCovariance σ C) ts obs M + a' * weighedError (panelCovariance σ C) ts obs M'
        - a * a' * weighedError (panelCovariance σ C) ts M' M := by
  unfold weighedError
  refine sum_map_mix fun t _ => ?_
  rw [covariance_form, covariance_form, covariance_form, covariance_form]
  set S := obsScaleTril σ C
  set u := S⁻¹ *ᵥ fun i => obs i t - M i t with hu
  set u' := S⁻¹ *ᵥ fun i => obs i t - M' i t with hu'
  have e1 : (S⁻¹ *ᵥ fun i => obs i t - M'' i t) = a • u + a' • u' := by
    rw [hu, hu', ← mulVec_smul, ← mulVec_smul, ← mulVec_add]
    congr 1
    funext i
    simp only [Pi.add_apply, Pi.smul_apply, smul_eq_mul, hM]
    obtain rfl : a' = 1 - a := by linarith
    ring
  have e2 : (S⁻¹ *ᵥ fun i => M' i t - M i t) = u - u' := by
    rw [hu, hu', ← mulVec_sub]
    congr 1
    funext i
    simp only [Pi.sub_apply]
    ring
  rw [e1, e2]
  simp only [dotProduct_add, add_dotProduct, smul_dotProduct, dotProduct_smul, dotProduct_sub, sub_dotProduct,
    smul_eq_mul]
  rw [dotProduct_comm u' u]
  obtain rfl : a' = 1 - a := by linarith
  ring

/-- If no mixture is better than the first of two points, the curvature between them bounds what the second
is worse. -/
theorem gap_of_mix {L L' Q : ℝ} (h : ∀ a a' : ℝ, 0 < a → 0 < a' → a + a' = 1 → a * L + a' * L' + a * a' * Q ≤ L) :
    Q ≤ L - L' := by
  by_contra hc
  push Not at hc
  rcases le_or_gt Q 0 with hQ | hQ
  · have := h (1 / 2) (1 / 2) (by norm_num) (by norm_num) (by norm_num)
    linarith
  · have hL : 0 ≤ L - L' ∨ L - L' < 0 := le_or_gt _ _
    rcases hL with hL | hL
    · set e := (Q - (L - L')) / (2 * Q) with he
      have e0 : 0 < e := by positivity
      have e1 : e < 1 := by
        rw [he, div_lt_one (by positivity)]
        linarith
      have := h (1 - e) e (by linarith) e0 (by ring)
      have h2 : e * ((1 - e) * Q) ≤ e * (L - L') := by linarith
      have h3 := le_of_mul_le_mul_left h2 e0
      have h4 : e * Q = (Q - (L - L')) / 2 := by
        rw [he]
        field_simp
      linarith
    · have := h (1 / 2) (1 / 2) (by norm_num) (by norm_num) (by norm_num)
      linarith

/-- The square of a product of two lists is at most the product of the sums of their squares. -/
theorem dot_sq_le : ∀ f v : List ℝ, dot f v ^ 2 ≤ (f.map fun x => x ^ 2).sum * (v.map fun x => x ^ 2).sum
  | [], v => by simp [dot]
  | _ :: _, [] => by simp [dot]
  | x :: f, z :: v => by
    have ih := dot_sq_le f v
    unfold dot at ih ⊢
    simp only [List.zipWith_cons_cons, List.sum_cons, List.map_cons]
    set D := (List.zipWith (· * ·) f v).sum
    set F := (f.map fun x => x ^ 2).sum
    set V := (v.map fun x => x ^ 2).sum
    have hF : 0 ≤ F := List.sum_nonneg fun w hw => by
      obtain ⟨u, -, rfl⟩ := List.mem_map.1 hw
      positivity
    have hV : 0 ≤ V := List.sum_nonneg fun w hw => by
      obtain ⟨u, -, rfl⟩ := List.mem_map.1 hw
      positivity
    have h1 : (2 * (x * z * D)) ^ 2 ≤ (x ^ 2 * V + F * z ^ 2) ^ 2 := by
      have : (2 * (x * z * D)) ^ 2 = 4 * (x ^ 2 * z ^ 2) * D ^ 2 := by ring
      rw [this]
      have h2 : 4 * (x ^ 2 * z ^ 2) * D ^ 2 ≤ 4 * (x ^ 2 * z ^ 2) * (F * V) :=
        mul_le_mul_of_nonneg_left ih (by positivity)
      nlinarith [sq_nonneg (x ^ 2 * V - F * z ^ 2)]
    have h2 := abs_le_of_sq_le_sq h1 (by positivity)
    have h3 := (le_abs_self _).trans h2
    nlinarith

/-! ## One series -/

section
variable {τ : Type} [LinearOrder τ]
variable {position : τ → ℤ} {compile : String → PyM (String → Bool)}
  {order : List String → List String} {days : τ → ℝ}
  {p : PiecewiseParams ℝ τ} {kind : String → EffectKind}
  {cfg : UniConfig (UsualAttrs τ) (Scale ℝ) τ ℝ (AnyData ℝ) ℝ} {y : Frame String τ ℝ} {c : String}
  {X : Option (Frame String τ ℝ)} {x : Frame String τ ℝ}
  {m : UniFit (UsualAttrs τ) (Scale ℝ) τ ℝ (AnyData ℝ) ℝ}

/-- Specification: the squared distance of two lists of numbers. -/
def squaredDistance (l l' : List ℝ) : ℝ := (List.zipWith (fun v v' => (v' - v) ^ 2) l l').sum

theorem squaredDistance_nonneg (l l' : List ℝ) : 0 ≤ squaredDistance l l' := by
  refine List.sum_nonneg fun v hv => ?_
  obtain ⟨k, hk, rfl⟩ := List.getElem_of_mem hv
  rw [List.getElem_zipWith]
  positivity

/-- The mean is linear in the parameters, if all effects are additive. -/
theorem usualMean_mix {a a' : ℝ} {θ θ' θ'' : SiteEnv ℝ} (h : Between a a' θ θ' θ'')
    (hadd : ∀ fe ∈ usedEffects kind m, (kind fe.name).modeOf = "additive") {s : PiecewiseState ℝ τ} {cs : List ℝ}
    (hz : UsualSizes kind cs (usedEffects kind m) θ) (hz' : UsualSizes kind cs (usedEffects kind m) θ') (t : τ) :
    usualMean position kind days s cs y x m θ'' t
      = a * usualMean position kind days s cs y x m θ t + a' * usualMean position kind days s cs y x m θ' t := by
  have h1 : (θ'' "offset").data.headD 0 = a * (θ "offset").data.headD 0 + a' * (θ' "offset").data.headD 0 := by
    obtain ⟨o, ho⟩ := hz.trend.1
    obtain ⟨o', ho'⟩ := hz'.trend.1
    rw [(h _).2, ho, ho']
    rfl
  have ht : usualTrend days s cs θ'' t = a * usualTrend days s cs θ t + a' * usualTrend days s cs θ' t := by
    unfold usualTrend trendAt
    have h2 := zip_mix (a := a) (a' := a') (ρ := rampEntry (s.time.scaled days t)) (cs := cs)
      (l := (θ "changepoint_coefficients").data) (l' := (θ' "changepoint_coefficients").data)
      (by rw [hz.trend.2, hz'.trend.2])
    rw [h1, (h _).2]
    unfold mixList at h2
    rw [h2]
    ring
  have he : ((usedEffects kind m).map fun fe =>
      combine (kind fe.name).modeOf (usualTrend days s cs θ'' t)
        (dot ((kind fe.name).features position (firstPosition position y.times) fe.cols t (rowAt x t))
          (θ'' (fe.name ++ "/coefs")).data))
      = (usedEffects kind m).map fun fe =>
        a * combine (kind fe.name).modeOf (usualTrend days s cs θ t)
          (dot ((kind fe.name).features position (firstPosition position y.times) fe.cols t (rowAt x t))
            (θ (fe.name ++ "/coefs")).data)
        + a' * combine (kind fe.name).modeOf (usualTrend days s cs θ' t)
          (dot ((kind fe.name).features position (firstPosition position y.times) fe.cols t (rowAt x t))
            (θ' (fe.name ++ "/coefs")).data) := by
    refine List.map_congr_left fun fe hfe => ?_
    rw [hadd fe hfe]
    simp only [combine, if_true]
    rw [(h _).2]
    exact dot_mix (by rw [hz.coefs fe hfe, hz'.coefs fe hfe])
  unfold usualMean
  rw [he, List.sum_map_add, List.sum_map_mul_left, List.sum_map_mul_left, ht]
  ring

variable (hU : Usual position compile order days suggestLinear p kind cfg) (hp : Starts p)
  (hT : Training cfg y c X x) (hfit : uniFitData cfg y X = .ok m) {b : ℝ} (hb : p.priorScale = .scalar b)
  (hw : ∀ n ss mode s, kind n = .seasonal ss mode s → waves ss ≠ []) {sd : String → ℝ}
  (hk : ∀ fe ∈ usedEffects kind m, (kind fe.name).prior = normalLP 0 (sd fe.name))
  {s : PiecewiseState ℝ τ} {cs : List ℝ} (hs : m.trend.st.2 = .piecewise (some s)) (hcs : s.cps = [cs])
  {μ : ℝ} (hμ : s.offsetLoc = [μ]) {ns scale os σ : ℝ} (hb0 : 0 ≤ b)
  (hadd : ∀ fe ∈ usedEffects kind m, (kind fe.name).modeOf = "additive") (hσ : σ ≠ 0)
  {θ θ' : SiteEnv ℝ} {L L' : ℝ} (hθ : BestIn kind .normal cs ns scale os (· = σ) m θ L)
  (hz' : UsualSizes kind cs (usedEffects kind m) θ') (hN' : siteScalar θ' "noise_scale" = σ)
  (hL' : usualDensity kind .normal ns scale os m θ' = .ok L')
include hU hp hT hfit hb hw hk hs hcs hμ hb0 hadd hσ hθ hz' hN' hL'

/-- **C132**: what parameters miss to the best log posterior of the same noise level bounds the squared
distance of their fitted means, offset and coefficients from those of the best fit, in units of the noise
level and the prior scales. -/
theorem C132_distance :
    (y.rows.map fun row => (usualMean position kind days s cs y x m θ' row.time
        - usualMean position kind days s cs y x m θ row.time) ^ 2).sum / σ ^ 2
      + ((θ' "offset").data.headD 0 - (θ "offset").data.headD 0) ^ 2 / os ^ 2
      + ((usedEffects kind m).map fun fe =>
          squaredDistance (θ (fe.name ++ "/coefs")).data (θ' (fe.name ++ "/coefs")).data / sd fe.name ^ 2).sum
    ≤ 2 * (L - L') := by
  obtain ⟨K, hK⟩ := density_penalised (ns := ns) (scale := scale) (os := os) hU hp hT hfit hb hw hk hs hcs hμ hσ
  obtain ⟨hz, hN, hL, hmax⟩ := hθ
  rw [hK θ hz hN] at hL
  rw [hK θ' hz' hN'] at hL'
  have hL := Except.ok.inj hL
  have hL' := Except.ok.inj hL'
  set Q := (y.rows.map fun row => (usualMean position kind days s cs y x m θ' row.time
        - usualMean position kind days s cs y x m θ row.time) ^ 2).sum / σ ^ 2
      + ((θ' "offset").data.headD 0 - (θ "offset").data.headD 0) ^ 2 / os ^ 2
      + ((usedEffects kind m).map fun fe =>
          squaredDistance (θ (fe.name ++ "/coefs")).data (θ' (fe.name ++ "/coefs")).data / sd fe.name ^ 2).sum with hQ
  suffices h : Q / 2 ≤ L - L' by linarith
  refine gap_of_mix fun a a' ha ha' haa => ?_
  let θ'' : SiteEnv ℝ := fun n => ⟨(θ n).shape,
    List.zipWith (fun x x' => a * x + a' * x') (θ n).data (θ' n).data⟩
  have hmix : Between a a' θ θ' θ'' := fun n => ⟨rfl, rfl⟩
  obtain ⟨o, ho⟩ := hz.trend.1
  obtain ⟨o', ho'⟩ := hz'.trend.1
  have hz'' : UsualSizes kind cs (usedEffects kind m) θ'' := by
    refine ⟨⟨⟨a * o + a' * o', ?_⟩, ?_⟩, ?_, fun fe hfe => ?_⟩
    · simp only [θ'', ho, ho']
      rfl
    · simp only [θ'', List.length_zipWith, hz.trend.2, hz'.trend.2, min_self]
    · simp only [θ'', List.length_zipWith, hz.noise, hz'.noise, min_self]
    · simp only [θ'', List.length_zipWith, hz.coefs fe hfe, hz'.coefs fe hfe, min_self]
  have hN'' : siteScalar θ'' "noise_scale" = σ := by
    have e1 := hz.noise
    have e2 := hz'.noise
    unfold siteScalar at hN hN' ⊢
    simp only [θ'']
    match h : (θ "noise_scale").data, h' : (θ' "noise_scale").data, e1, e2 with
    | [v], [v'], _, _ =>
      rw [h] at hN
      rw [h'] at hN'
      simp only [List.headD_cons] at hN hN'
      simp only [List.zipWith_cons_cons, List.headD_cons, hN, hN', ← add_mul, haa, one_mul]
  have hle := hmax θ'' _ hz'' hN'' (hK θ'' hz'' hN'')
  -- the squared error of the mixture
  have q1 : squaredError position kind days s cs y c x m θ''
      = a * squaredError position kind days s cs y c x m θ + a' * squaredError position kind days s cs y c x m θ'
        - a * a' * (y.rows.map fun row => (usualMean position kind days s cs y x m θ' row.time
          - usualMean position kind days s cs y x m θ row.time) ^ 2).sum :=
    sum_err_mix haa (fun row : Row String τ ℝ => usualMean_mix hmix hadd hz hz' row.time) y.rows
  -- its price
  have q2 : ((θ'' "offset").data.headD 0 - μ) ^ 2 = a * ((θ "offset").data.headD 0 - μ) ^ 2
      + a' * ((θ' "offset").data.headD 0 - μ) ^ 2
      - a * a' * ((θ' "offset").data.headD 0 - (θ "offset").data.headD 0) ^ 2 := by
    simp only [θ'', ho, ho', List.zipWith_cons_cons, List.headD_cons]
    obtain rfl : a' = 1 - a := by linarith
    ring
  have q3 := sum_abs_mix ha.le ha'.le (θ "changepoint_coefficients").data (θ' "changepoint_coefficients").data
    (by rw [hz.trend.2, hz'.trend.2])
  have q4 : ((usedEffects kind m).map fun fe =>
        ((θ'' (fe.name ++ "/coefs")).data.map fun v => v ^ 2).sum / sd fe.name ^ 2).sum
      = a * ((usedEffects kind m).map fun fe =>
        ((θ (fe.name ++ "/coefs")).data.map fun v => v ^ 2).sum / sd fe.name ^ 2).sum
        + a' * ((usedEffects kind m).map fun fe =>
        ((θ' (fe.name ++ "/coefs")).data.map fun v => v ^ 2).sum / sd fe.name ^ 2).sum
        - a * a' * ((usedEffects kind m).map fun fe =>
          squaredDistance (θ (fe.name ++ "/coefs")).data (θ' (fe.name ++ "/coefs")).data / sd fe.name ^ 2).sum := by
    refine sum_map_mix fun fe hfe => ?_
    have := sum_sq_mix haa (θ (fe.name ++ "/coefs")).data (θ' (fe.name ++ "/coefs")).data
      (by rw [hz.coefs fe hfe, hz'.coefs fe hfe])
    unfold mixList at this
    simp only [θ'', this]
    unfold squaredDistance
    ring
  have q5 : price kind m μ os b sd θ'' ≤ a * price kind m μ os b sd θ + a' * price kind m μ os b sd θ'
      - a * a' * (((θ' "offset").data.headD 0 - (θ "offset").data.headD 0) ^ 2 / os ^ 2
        + ((usedEffects kind m).map fun fe =>
          squaredDistance (θ (fe.name ++ "/coefs")).data (θ' (fe.name ++ "/coefs")).data / sd fe.name ^ 2).sum) := by
    unfold price
    rw [q2, q4]
    have q6 : 2 * ((θ'' "changepoint_coefficients").data.map fun v => |v|).sum / b
        ≤ a * (2 * ((θ "changepoint_coefficients").data.map fun v => |v|).sum / b)
          + a' * (2 * ((θ' "changepoint_coefficients").data.map fun v => |v|).sum / b) := by
      have e : a * (2 * ((θ "changepoint_coefficients").data.map fun v => |v|).sum / b)
          + a' * (2 * ((θ' "changepoint_coefficients").data.map fun v => |v|).sum / b)
          = 2 * (a * ((θ "changepoint_coefficients").data.map fun v => |v|).sum
            + a' * ((θ' "changepoint_coefficients").data.map fun v => |v|).sum) / b := by ring
      rw [e]
      exact div_le_div_of_nonneg_right (mul_le_mul_of_nonneg_left q3 (by norm_num)) hb0
    simp only [div_eq_mul_inv] at q6 ⊢
    linarith
  have hσ2 : 0 < σ ^ 2 := by positivity
  have q7 : (squaredError position kind days s cs y c x m θ'' + σ ^ 2 * price kind m μ os b sd θ'') / (2 * σ ^ 2)
      ≤ a * ((squaredError position kind days s cs y c x m θ + σ ^ 2 * price kind m μ os b sd θ) / (2 * σ ^ 2))
        + a' * ((squaredError position kind days s cs y c x m θ' + σ ^ 2 * price kind m μ os b sd θ') / (2 * σ ^ 2))
        - a * a' * (Q / 2) := by
    have e : ∀ E P : ℝ, (E + σ ^ 2 * P) / (2 * σ ^ 2) = E / σ ^ 2 / 2 + P / 2 := by
      intro E P
      field_simp
    rw [e, e, e, q1, hQ]
    generalize (y.rows.map fun row => (usualMean position kind days s cs y x m θ' row.time
      - usualMean position kind days s cs y x m θ row.time) ^ 2).sum = R
    have e' : (a * squaredError position kind days s cs y c x m θ + a' * squaredError position kind days s cs y c x m θ'
        - a * a' * R) / σ ^ 2 / 2 = a * (squaredError position kind days s cs y c x m θ / σ ^ 2 / 2)
        + a' * (squaredError position kind days s cs y c x m θ' / σ ^ 2 / 2) - a * a' * (R / σ ^ 2 / 2) := by ring
    rw [e']
    linarith
  have hK1 : a * K + a' * K = K := by rw [← add_mul, haa, one_mul]
  rw [← hL, ← hL']
  rw [← hL] at hle
  linarith

/-- **C132**: every fitted mean of the history is within the noise level times the square root of twice
what is missing. -/
theorem C132_mean {row : Row String τ ℝ} (hrow : row ∈ y.rows) :
    |usualMean position kind days s cs y x m θ' row.time - usualMean position kind days s cs y x m θ row.time|
      ≤ |σ| * Real.sqrt (2 * (L - L')) := by
  have h := C132_distance hU hp hT hfit hb hw hk hs hcs hμ hb0 hadd hσ hθ hz' hN' hL'
  have h1 : (usualMean position kind days s cs y x m θ' row.time
        - usualMean position kind days s cs y x m θ row.time) ^ 2
      ≤ (y.rows.map fun row => (usualMean position kind days s cs y x m θ' row.time
        - usualMean position kind days s cs y x m θ row.time) ^ 2).sum := by
    refine List.single_le_sum (fun v hv => ?_) _ (List.mem_map.2 ⟨row, hrow, rfl⟩)
    obtain ⟨w, -, rfl⟩ := List.mem_map.1 hv
    positivity
  have h2 : 0 ≤ ((θ' "offset").data.headD 0 - (θ "offset").data.headD 0) ^ 2 / os ^ 2 := by positivity
  have h3 : 0 ≤ ((usedEffects kind m).map fun fe =>
          squaredDistance (θ (fe.name ++ "/coefs")).data (θ' (fe.name ++ "/coefs")).data / sd fe.name ^ 2).sum := by
    refine List.sum_nonneg fun v hv => ?_
    obtain ⟨fe, -, rfl⟩ := List.mem_map.1 hv
    exact div_nonneg (squaredDistance_nonneg _ _) (by positivity)
  have h4 : (y.rows.map fun row => (usualMean position kind days s cs y x m θ' row.time
        - usualMean position kind days s cs y x m θ row.time) ^ 2).sum / σ ^ 2 ≤ 2 * (L - L') := by linarith
  rw [div_le_iff₀ (by positivity)] at h4
  rw [← Real.sqrt_sq_eq_abs σ, ← Real.sqrt_mul (sq_nonneg _)]
  exact Real.abs_le_sqrt (by linarith)

/-- **C132**: what an effect contributes, at any date of the past or future and whatever the features, is
within the prior scale times the length of the features times the square root of twice what is missing. -/
theorem C132_effect {fe : FittedEffect (UsualAttrs τ) (Frame String τ ℝ) (Scale ℝ) τ ℝ (AnyData ℝ) ℝ}
    (hfe : fe ∈ usedEffects kind m) (hsd : sd fe.name ≠ 0) (f : List ℝ) :
    |dot f (θ' (fe.name ++ "/coefs")).data - dot f (θ (fe.name ++ "/coefs")).data|
      ≤ |sd fe.name| * Real.sqrt ((f.map fun v => v ^ 2).sum * (2 * (L - L'))) := by
  have h := C132_distance hU hp hT hfit hb hw hk hs hcs hμ hb0 hadd hσ hθ hz' hN' hL'
  have h1 : 0 ≤ (y.rows.map fun row => (usualMean position kind days s cs y x m θ' row.time
        - usualMean position kind days s cs y x m θ row.time) ^ 2).sum / σ ^ 2 := by
    refine div_nonneg (List.sum_nonneg fun v hv => ?_) (by positivity)
    obtain ⟨w, -, rfl⟩ := List.mem_map.1 hv
    positivity
  have h2 : 0 ≤ ((θ' "offset").data.headD 0 - (θ "offset").data.headD 0) ^ 2 / os ^ 2 := by positivity
  have h3 := List.single_le_sum (l := (usedEffects kind m).map fun fe =>
          squaredDistance (θ (fe.name ++ "/coefs")).data (θ' (fe.name ++ "/coefs")).data / sd fe.name ^ 2)
    (fun v hv => by
      obtain ⟨fe, -, rfl⟩ := List.mem_map.1 hv
      exact div_nonneg (squaredDistance_nonneg _ _) (by positivity)) _ (List.mem_map.2 ⟨fe, hfe, rfl⟩)
  have h4 : squaredDistance (θ (fe.name ++ "/coefs")).data (θ' (fe.name ++ "/coefs")).data / sd fe.name ^ 2
      ≤ 2 * (L - L') := by linarith
  rw [div_le_iff₀ (by positivity)] at h4
  have h5 := dot_mix (r := f) (a := -1) (a' := 1) (l := (θ (fe.name ++ "/coefs")).data)
    (l' := (θ' (fe.name ++ "/coefs")).data) (by rw [hθ.1.coefs fe hfe, hz'.coefs fe hfe])
  have h6 : dot f (θ' (fe.name ++ "/coefs")).data - dot f (θ (fe.name ++ "/coefs")).data
      = dot f (mixList (-1) 1 (θ (fe.name ++ "/coefs")).data (θ' (fe.name ++ "/coefs")).data) := by
    rw [h5]
    ring
  have h7 := dot_sq_le f (mixList (-1) 1 (θ (fe.name ++ "/coefs")).data (θ' (fe.name ++ "/coefs")).data)
  have h8 : ((mixList (-1) 1 (θ (fe.name ++ "/coefs")).data (θ' (fe.name ++ "/coefs")).data).map fun v => v ^ 2).sum
      = squaredDistance (θ (fe.name ++ "/coefs")).data (θ' (fe.name ++ "/coefs")).data := by
    unfold mixList squaredDistance
    rw [List.map_zipWith]
    congr 2
    funext v v'
    ring
  have h9 : 0 ≤ (f.map fun v => v ^ 2).sum := List.sum_nonneg fun w hw => by
    obtain ⟨u, -, rfl⟩ := List.mem_map.1 hw
    positivity
  rw [h6, ← Real.sqrt_sq_eq_abs (sd fe.name), ← Real.sqrt_mul (sq_nonneg _)]
  refine Real.abs_le_sqrt (h7.trans ?_)
  rw [h8]
  have := mul_le_mul_of_nonneg_left h4 h9
  linarith

omit hz' hN' hL' in
/-- **C132**: whatever the optimiser, if its log posterior converges to the best one at the noise level, its
fitted means converge to those of the best fit at all dates of the history, and what its effects contribute
converges at all dates and for all features. -/
theorem C132_limit (hsd : ∀ fe ∈ usedEffects kind m, sd fe.name ≠ 0) {θs : ℕ → SiteEnv ℝ} {Ls : ℕ → ℝ}
    (hzs : ∀ k, UsualSizes kind cs (usedEffects kind m) (θs k)) (hNs : ∀ k, siteScalar (θs k) "noise_scale" = σ)
    (hLs : ∀ k, usualDensity kind .normal ns scale os m (θs k) = .ok (Ls k)) (hlim : Tendsto Ls atTop (nhds L)) :
    (∀ row ∈ y.rows, Tendsto (fun k => usualMean position kind days s cs y x m (θs k) row.time) atTop
      (nhds (usualMean position kind days s cs y x m θ row.time))) ∧
    ∀ fe ∈ usedEffects kind m, ∀ f : List ℝ, Tendsto (fun k => dot f (θs k (fe.name ++ "/coefs")).data) atTop
      (nhds (dot f (θ (fe.name ++ "/coefs")).data)) := by
  have h0 : Tendsto (fun k => 2 * (L - Ls k)) atTop (nhds 0) := by
    have := (hlim.const_sub L).const_mul 2
    simpa using this
  constructor
  · intro row hrow
    rw [tendsto_iff_dist_tendsto_zero]
    refine squeeze_zero (fun _ => dist_nonneg) (fun k => ?_)
      (g := fun k => |σ| * Real.sqrt (2 * (L - Ls k))) ?_
    · exact C132_mean hU hp hT hfit hb hw hk hs hcs hμ hb0 hadd hσ hθ (hzs k) (hNs k) (hLs k) hrow
    · have := ((Real.continuous_sqrt.tendsto 0).comp h0).const_mul |σ|
      simpa using this
  · intro fe hfe f
    rw [tendsto_iff_dist_tendsto_zero]
    refine squeeze_zero (fun _ => dist_nonneg) (fun k => ?_)
      (g := fun k => |sd fe.name| * Real.sqrt ((f.map fun v => v ^ 2).sum * (2 * (L - Ls k)))) ?_
    · exact C132_effect hU hp hT hfit hb hw hk hs hcs hμ hb0 hadd hσ hθ (hzs k) (hNs k) (hLs k) hfe (hsd fe hfe) f
    · have h1 := h0.const_mul (f.map fun v => v ^ 2).sum
      rw [mul_zero] at h1
      have := ((Real.continuous_sqrt.tendsto 0).comp h1).const_mul |sd fe.name|
      simpa using this

end

/-! ## Panels -/

section
variable {τ : Type} [LinearOrder τ] {days : τ → ℝ} {p : PiecewiseParams ℝ τ}
  {cfg : HierConfig (Option (PiecewiseState ℝ τ)) (Scale ℝ) τ (Tensor ℝ) ℝ}

/-- **C132** for panels: what parameters miss to the best log posterior for the same noise levels and
correlation bounds the weighed squared distance of their fitted means, and the squared distances of their
offsets and coefficients from those of the best fit. -/
theorem C132_panel (hV : ValidHier days p cfg) (hM : Modes (fun _ => "additive") cfg) {y : Frame String τ ℝ}
    (hy : RegularPanel y) {c : String} (hc : y.cols = [c]) {obs : List String → τ → ℝ} (hobs : Observed y c obs)
    {ss : List (List String)} (hss : SeriesOf y ss) (h2 : 2 ≤ ss.length) {ts : List τ} (hts : DatesOf y ts)
    {b : ℝ} (hb : p.priorScale = .scalar b) (hb0 : 0 ≤ b) {X : Option (Frame String τ ℝ)} (hX : GivenExog X ss ts)
    (hcomp : ∀ c ∈ givenCols X, c ∉ cfg.shared → ∃ q, cfg.compile c = .ok q)
    {m : HierFit (Option (PiecewiseState ℝ τ)) (Scale ℝ) τ (Tensor ℝ) ℝ} (hfit : hierFitData cfg y X = .ok m)
    {s : PiecewiseState ℝ τ} (hs : m.trend.st.2 = some s) {x : Frame String τ ℝ}
    (hex : hierExog cfg (aggregate cfg.keep y) X = .ok (m.expand, x))
    {lkj : Nat → ℝ → Tensor ℝ → ℝ} {ns conc os : ℝ} {sd : String → ℝ}
    {σ : Fin ss.length → ℝ} {C : Matrix (Fin ss.length) (Fin ss.length) ℝ} {θ θ' : SiteEnv ℝ} {L L' : ℝ}
    (hN : NoiseOf σ C θ) (hθ : BestPanel lkj ns conc os (fun n => normalLP 0 (sd n)) s m θ)
    (hL : hierDensity lkj ns conc os (fun n => normalLP 0 (sd n)) m θ = .ok L) (hz' : HierSizes s m θ')
    (e1 : θ' "std_observation" = θ "std_observation") (e2 : θ' "corr_matrix" = θ "corr_matrix")
    (hL' : hierDensity lkj ns conc os (fun n => normalLP 0 (sd n)) m θ' = .ok L') :
    weighedError (panelCovariance σ C) ts
        (fun i t => panelMean days (fun _ => "additive") s ss (kept m.fitted) x θ' (ss.get i) t)
        (fun i t => panelMean days (fun _ => "additive") s ss (kept m.fitted) x θ (ss.get i) t)
      + squaredDistance (θ "offset").data (θ' "offset").data / os ^ 2
      + ((kept m.fitted).map fun fe =>
          squaredDistance (θ (fe.name ++ "/coefs")).data (θ' (fe.name ++ "/coefs")).data / sd fe.name ^ 2).sum
    ≤ 2 * (L - L') := by
  obtain ⟨K, hK⟩ := panel_penalised (lkj := lkj) (ns := ns) (conc := conc) (os := os) (sd := sd)
    hV hM hy hc hobs hss h2 hts hb hX hcomp hfit hs hex hN
  obtain ⟨h, ho, -, -, -, -, -⟩ := panel_facts hV hM hy hc hobs hss h2 hts hb hX hcomp hfit hs hex
  obtain ⟨hz, L₀, hL₀, hmax⟩ := hθ
  rw [hL] at hL₀
  cases hL₀
  rw [hK θ hz rfl rfl] at hL
  rw [hK θ' hz' e1 e2] at hL'
  have hL := Except.ok.inj hL
  have hL' := Except.ok.inj hL'
  set Q := weighedError (panelCovariance σ C) ts
        (fun i t => panelMean days (fun _ => "additive") s ss (kept m.fitted) x θ' (ss.get i) t)
        (fun i t => panelMean days (fun _ => "additive") s ss (kept m.fitted) x θ (ss.get i) t)
      + squaredDistance (θ "offset").data (θ' "offset").data / os ^ 2
      + ((kept m.fitted).map fun fe =>
          squaredDistance (θ (fe.name ++ "/coefs")).data (θ' (fe.name ++ "/coefs")).data / sd fe.name ^ 2).sum with hQ
  suffices hs : Q / 2 ≤ L - L' by linarith
  refine gap_of_mix fun a a' ha ha' haa => ?_
  let θ'' : SiteEnv ℝ := fun n => ⟨(θ n).shape,
    List.zipWith (fun x x' => a * x + a' * x') (θ n).data (θ' n).data⟩
  have hmix : Between a a' θ θ' θ'' := fun n => ⟨rfl, rfl⟩
  have g1 : θ'' "std_observation" = θ "std_observation" := hmix.same haa e1.symm
  have g2 : θ'' "corr_matrix" = θ "corr_matrix" := hmix.same haa e2.symm
  have hz'' : HierSizes s m θ'' := by
    refine ⟨⟨?_, ?_⟩, fun fe hfe hne => ?_⟩
    · simp only [θ'', List.length_zipWith, hz.trend.1, hz'.trend.1, min_self]
    · simp only [θ'', List.length_zipWith, hz.trend.2, hz'.trend.2, min_self]
    · simp only [θ'', List.length_zipWith, hz.coefs fe hfe hne, hz'.coefs fe hfe hne, min_self]
  have hle := hmax θ'' _ hz'' g1 g2 (hK θ'' hz'' g1 g2)
  have q1 := weighed_mix (σ := σ) (C := C) haa (obs := fun i t => obs (ss.get i) t)
    (M := fun i t => panelMean days (fun _ => "additive") s ss (kept m.fitted) x θ (ss.get i) t)
    (M' := fun i t => panelMean days (fun _ => "additive") s ss (kept m.fitted) x θ' (ss.get i) t)
    (M'' := fun i t => panelMean days (fun _ => "additive") s ss (kept m.fitted) x θ'' (ss.get i) t)
    (fun i t => panelMean_mix haa hmix h hz hz' _ _) ts
  have q2 := sum_off_mix haa s.offsetLoc (θ "offset").data (θ' "offset").data
    (by rw [hz.trend.1, ho, h.changepoints]) (by rw [hz'.trend.1, ho, h.changepoints])
  have q3 := sum_abs_mix ha.le ha'.le (θ "changepoint_coefficients").data (θ' "changepoint_coefficients").data
    (by rw [hz.trend.2, hz'.trend.2])
  have q4 : ((kept m.fitted).map fun fe =>
        ((θ'' (fe.name ++ "/coefs")).data.map fun v => v ^ 2).sum / sd fe.name ^ 2).sum
      = a * ((kept m.fitted).map fun fe =>
        ((θ (fe.name ++ "/coefs")).data.map fun v => v ^ 2).sum / sd fe.name ^ 2).sum
        + a' * ((kept m.fitted).map fun fe =>
        ((θ' (fe.name ++ "/coefs")).data.map fun v => v ^ 2).sum / sd fe.name ^ 2).sum
        - a * a' * ((kept m.fitted).map fun fe =>
          squaredDistance (θ (fe.name ++ "/coefs")).data (θ' (fe.name ++ "/coefs")).data / sd fe.name ^ 2).sum := by
    refine sum_map_mix fun fe hfe => ?_
    obtain ⟨k1, k2⟩ := (hier_kept h).1 hfe
    have := sum_sq_mix haa (θ (fe.name ++ "/coefs")).data (θ' (fe.name ++ "/coefs")).data
      (by rw [hz.coefs fe k1 k2, hz'.coefs fe k1 k2])
    unfold mixList at this
    simp only [θ'', this]
    unfold squaredDistance
    ring
  have q5 : panelPrice s m os b sd θ'' ≤ a * panelPrice s m os b sd θ + a' * panelPrice s m os b sd θ'
      - a * a' * (squaredDistance (θ "offset").data (θ' "offset").data / os ^ 2
        + ((kept m.fitted).map fun fe =>
          squaredDistance (θ (fe.name ++ "/coefs")).data (θ' (fe.name ++ "/coefs")).data / sd fe.name ^ 2).sum) := by
    unfold panelPrice
    have q2' : (List.zipWith (fun μ o => (o - μ) ^ 2) s.offsetLoc (θ'' "offset").data).sum
        = a * (List.zipWith (fun μ o => (o - μ) ^ 2) s.offsetLoc (θ "offset").data).sum
          + a' * (List.zipWith (fun μ o => (o - μ) ^ 2) s.offsetLoc (θ' "offset").data).sum
          - a * a' * squaredDistance (θ "offset").data (θ' "offset").data := q2
    rw [q2', q4]
    have q6 : 2 * ((θ'' "changepoint_coefficients").data.map fun v => |v|).sum / b
        ≤ a * (2 * ((θ "changepoint_coefficients").data.map fun v => |v|).sum / b)
          + a' * (2 * ((θ' "changepoint_coefficients").data.map fun v => |v|).sum / b) := by
      have e : a * (2 * ((θ "changepoint_coefficients").data.map fun v => |v|).sum / b)
          + a' * (2 * ((θ' "changepoint_coefficients").data.map fun v => |v|).sum / b)
          = 2 * (a * ((θ "changepoint_coefficients").data.map fun v => |v|).sum
            + a' * ((θ' "changepoint_coefficients").data.map fun v => |v|).sum) / b := by ring
      rw [e]
      exact div_le_div_of_nonneg_right (mul_le_mul_of_nonneg_left q3 (by norm_num)) hb0
    simp only [div_eq_mul_inv] at q6 ⊢
    linarith
  have hK1 : a * K + a' * K = K := by rw [← add_mul, haa, one_mul]
  rw [q1] at hle
  rw [← hL, ← hL', hQ]
  rw [← hL] at hle
  linarith

/-! ## Cases -/

/-- Moving the offset of the best fit by one gives parameters to which the theorems apply: they miss at least
50 to the best log posterior, because the prior scale of the offset is a tenth. -/
example : ∃ m s cs θ L θ' L', uniFitData exCfg96 exY85 (some exX97) = .ok m ∧
    m.trend.st.2 = .piecewise (some s) ∧ s.cps = [cs] ∧
    BestIn exKind96 .normal cs (1 / 20) 1 (1 / 10) (· = 1 / 20) m θ L ∧
    UsualSizes exKind96 cs (usedEffects exKind96 m) θ' ∧ siteScalar θ' "noise_scale" = 1 / 20 ∧
    usualDensity exKind96 .normal (1 / 20) 1 (1 / 10) m θ' = .ok L' ∧ L' + 50 ≤ L ∧
    ∀ row ∈ exY85.rows, |usualMean id exKind96 (fun n : ℤ => (n : ℝ)) s cs exY85 exX97 m θ' row.time
      - usualMean id exKind96 (fun n : ℤ => (n : ℝ)) s cs exY85 exX97 m θ row.time|
        ≤ |1 / 20| * Real.sqrt (2 * (L - L')) := by
  have hmono : StrictMono fun n : ℤ => (n : ℝ) := fun _ _ h => Int.cast_lt.2 h
  obtain ⟨m, hm⟩ := C98_fits exUsual96 exValid123 hmono exTraining123 (by simp [exY85]) (by rintro _ ⟨⟩ a ha; exact ha)
  obtain ⟨s, cs, hs, hcs, -⟩ := usual_coords exUsual96 exTraining123 hm (b := 2) rfl exWaves123
  obtain ⟨θ, L, hθ⟩ := bestIn_exists exUsual96 (.inl rfl) exTraining123 hm (b := 2) rfl (by norm_num) exWaves123
    (fun n => by rw [exPrior125]; exact continuous_normalLP _ _)
    (fun n => by rw [exPrior125]; exact tendsto_normalLP _ (by unfold exSd125; split <;> norm_num)) hs hcs
    (1 / 20) 1 (1 / 20) (os := 1 / 10) (by norm_num)
  have hμ : s.offsetLoc = [1] := by
    have := first_location exUsual96 rfl rfl hmono exTraining123 (by simp [exY85]) hm hs
    simpa [exY85] using this
  have hadd : ∀ fe ∈ usedEffects exKind96 m, (exKind96 fe.name).modeOf = "additive" := by
    intro fe _
    unfold exKind96
    split <;> rfl
  obtain ⟨o, ho⟩ := hθ.1.trend.1
  have e3 : ∀ n : String, Function.update θ "offset" ⟨[1], [o + 1]⟩ (n ++ "/coefs") = θ (n ++ "/coefs") :=
    fun n => Function.update_of_ne (coefs_site_ne _ (by decide)) _ _
  have hz' : UsualSizes exKind96 cs (usedEffects exKind96 m) (Function.update θ "offset" ⟨[1], [o + 1]⟩) :=
    ⟨⟨⟨o + 1, by simp⟩, by simpa using hθ.1.trend.2⟩, by simpa using hθ.1.noise,
      fun fe hfe => by rw [e3]; exact hθ.1.coefs fe hfe⟩
  have hN' : siteScalar (Function.update θ "offset" ⟨[1], [o + 1]⟩) "noise_scale" = 1 / 20 := by
    have := hθ.2.1
    unfold siteScalar at this ⊢
    simpa using this
  obtain ⟨K, hK⟩ := density_penalised (ns := 1 / 20) (scale := 1) (os := 1 / 10) exUsual96 (.inl rfl) exTraining123 hm (b := 2)
    rfl exWaves123 (sd := exSd125) (fun fe _ => exPrior125 fe.name) hs hcs hμ (σ := 1 / 20) (by norm_num)
  have hL' := hK _ hz' hN'
  have h := C132_distance exUsual96 (.inl rfl) exTraining123 hm (b := 2) rfl exWaves123 (sd := exSd125)
    (fun fe _ => exPrior125 fe.name) hs hcs hμ (by norm_num) hadd (by norm_num) hθ hz' hN' hL'
  refine ⟨m, s, cs, θ, L, _, _, hm, hs, hcs, hθ, hz', hN', hL', ?_, fun row hrow => ?_⟩
  · have h1 : 0 ≤ (exY85.rows.map fun row => (usualMean id exKind96 (fun n : ℤ => (n : ℝ)) s cs exY85 exX97 m
          (Function.update θ "offset" ⟨[1], [o + 1]⟩) row.time
        - usualMean id exKind96 (fun n : ℤ => (n : ℝ)) s cs exY85 exX97 m θ row.time) ^ 2).sum / (1 / 20) ^ 2 := by
      refine div_nonneg (List.sum_nonneg fun v hv => ?_) (by positivity)
      obtain ⟨w, -, rfl⟩ := List.mem_map.1 hv
      positivity
    have h3 : 0 ≤ ((usedEffects exKind96 m).map fun fe =>
          squaredDistance (θ (fe.name ++ "/coefs")).data
            (Function.update θ "offset" ⟨[1], [o + 1]⟩ (fe.name ++ "/coefs")).data / exSd125 fe.name ^ 2).sum := by
      refine List.sum_nonneg fun v hv => ?_
      obtain ⟨fe, -, rfl⟩ := List.mem_map.1 hv
      exact div_nonneg (squaredDistance_nonneg _ _) (by positivity)
    have h4 : ((Function.update θ "offset" ⟨[1], [o + 1]⟩ "offset").data.headD 0 - (θ "offset").data.headD 0) ^ 2
        / (1 / 10 : ℝ) ^ 2 = 100 := by
      rw [Function.update_self, ho]
      norm_num
    rw [h4] at h
    linarith
  · exact C132_mean exUsual96 (.inl rfl) exTraining123 hm (b := 2) rfl exWaves123 (sd := exSd125)
      (fun fe _ => exPrior125 fe.name) hs hcs hμ (by norm_num) hadd (by norm_num) hθ hz' hN' hL' hrow

/-- For a panel of two correlated products: the offsets of all parameters that miss at most 1 to the best
log posterior are near those of the best fit. -/
example : ∃ m s θ L, hierFitData exCfg114 exY113 (some exX113) = .ok m ∧
    BestPanel (fun _ _ _ => 0) 1 1 (1 / 10) (fun _ => normalLP 0 2) s m θ ∧
    hierDensity (fun _ _ _ => 0) 1 1 (1 / 10) (fun _ => normalLP 0 2) m θ = .ok L ∧
    ∀ θ' L', HierSizes s m θ' → θ' "std_observation" = θ "std_observation" → θ' "corr_matrix" = θ "corr_matrix" →
      hierDensity (fun _ _ _ => 0) 1 1 (1 / 10) (fun _ => normalLP 0 2) m θ' = .ok L' → L - 1 ≤ L' →
      squaredDistance (θ "offset").data (θ' "offset").data ≤ 1 / 50 := by
  have hX := exExog113 (ts := [0, 1]) (by simp) (by simp) (by simp)
  have hc : ∀ c ∈ givenCols (some exX113), c ∉ exCfg114.shared → ∃ q, exCfg114.compile c = .ok q :=
    fun _ _ _ => ⟨_, rfl⟩
  have k1 : VectorSite (n := 2) ⟨[2], [1, 2]⟩ ![1, 2] := ⟨rfl, fun i => by fin_cases i <;> rfl⟩
  have k2 : ∀ i, (0 : ℝ) < ![1, 2] i := fun i => by fin_cases i <;> simp
  have k3 : MatrixSite (exθ90 "corr_matrix") exL46 := ⟨rfl, fun i j => by fin_cases i <;> fin_cases j <;> rfl⟩
  have hobs : Observed exY113 "y" fun a t => cellAt exY113 a t "y" :=
    fun r hr _ => cellAt_of_mem exPanel113.ordered hr (by simp [exY113])
  obtain ⟨m, s, h1, hs, h⟩ := C114_exists exValid114 exModes114 exPanel113 exSeries113 (by simp) exDates113
    (b := 1 / 10) rfl (by norm_num) hX hc
  obtain ⟨θ, h2, h3, h4⟩ := h (fun _ _ _ => 0) 1 1 (1 / 10) (fun _ => normalLP 0 2) (by norm_num)
    (fun _ => continuous_normalLP 0 2) (fun _ => tendsto_normalLP 0 two_ne_zero) ⟨[2], [1, 2]⟩
    (exθ90 "corr_matrix") ![1, 2] exL46 rfl k1 k2 k3 exL46_factor
  have hN : NoiseOf (n := 2) ![1, 2] exL46 θ := ⟨by rw [h2]; rfl, by rw [h2]; exact k1, k2, by rw [h3]; exact k3, exL46_factor⟩
  obtain ⟨x, s', hex, h', -⟩ := hier_posterior exValid114 exModes114 exPanel113 rfl hobs exSeries113 (by simp) exDates113
    trivial hX hc h1
  have := h'.state
  rw [hs] at this
  cases this
  obtain ⟨-, L, hL, -⟩ := id h4
  refine ⟨m, s, θ, L, h1, h4, hL, fun θ' L' hz' e1 e2 hL' hle => ?_⟩
  have hq := C132_panel exValid114 exModes114 exPanel113 rfl hobs exSeries113 (by simp) exDates113 (b := 1 / 10) rfl
    (by norm_num) hX hc h1 hs hex (sd := fun _ => 2) hN h4 hL hz' e1 e2 hL'
  have q1 := weighedError_nonneg (n := 2) ![1, 2] exL46 [0, 1]
    (fun i t => panelMean (fun t : ℤ => (t : ℝ)) (fun _ => "additive") s [["p"], ["q"]] (kept m.fitted) x θ'
      ([["p"], ["q"]].get i) t)
    (fun i t => panelMean (fun t : ℤ => (t : ℝ)) (fun _ => "additive") s [["p"], ["q"]] (kept m.fitted) x θ
      ([["p"], ["q"]].get i) t)
  have q2 : 0 ≤ ((kept m.fitted).map fun fe =>
      squaredDistance (θ (fe.name ++ "/coefs")).data (θ' (fe.name ++ "/coefs")).data / (2 : ℝ) ^ 2).sum := by
    refine List.sum_nonneg fun v hv => ?_
    obtain ⟨fe, -, rfl⟩ := List.mem_map.1 hv
    exact div_nonneg (squaredDistance_nonneg _ _) (by positivity)
  have q3 : squaredDistance (θ "offset").data (θ' "offset").data / (1 / 10) ^ 2 ≤ 2 * (L - L') :=
    ((le_add_of_nonneg_left q1).trans (le_add_of_nonneg_right q2)).trans hq
  rw [div_le_iff₀ (by norm_num)] at q3
  linarith

end
end PV
