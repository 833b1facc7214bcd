import Mathlib.Tactic.FieldSimp
import Mathlib.Tactic.Ring
import Verif.Props.PanelNoFit
import Verif.Props.Penalised

/-!
# C131: the best fit of a panel is penalised generalised least squares

For given noise levels and correlation, the best fit of the hierarchical forecaster minimises the squared
errors, weighed by the inverse of the covariance of the series, plus the price of the parameters.
-/

set_option linter.unusedSectionVars false

namespace PV
open Tensor Filter Matrix

/-! ## Specification -/

section
variable {τ : Type} [LinearOrder τ]

/-- What a panel with the means `M` misses of the observations: for every date the errors of the series,
squared in the metric of the inverse covariance. -/
noncomputable def weighedError {n : Nat} (V : Matrix (Fin n) (Fin n) ℝ) (ts : List τ) (obs M : Fin n → τ → ℝ) : ℝ :=
  (ts.map fun t => (fun i => obs i t - M i t) ⬝ᵥ (V⁻¹ *ᵥ fun i => obs i t - M i t)).sum

/-- What parameters of a panel cost under the priors: the squared distances of the offsets from the
centres of their priors over the squared prior scale, twice the absolute changes of slope over theirs,
and the squared coefficients of every effect over its squared prior scale. -/
noncomputable def panelPrice (s : PiecewiseState ℝ τ)
    (m : HierFit (Option (PiecewiseState ℝ τ)) (Scale ℝ) τ (Tensor ℝ) ℝ) (os b : ℝ) (sd : String → ℝ)
    (θ : SiteEnv ℝ) : ℝ :=
  (List.zipWith (fun μ o => (o - μ) ^ 2) s.offsetLoc (θ "offset").data).sum / os ^ 2
    + 2 * ((θ "changepoint_coefficients").data.map fun v => |v|).sum / b
    + ((kept m.fitted).map fun fe =>
        ((θ (fe.name ++ "/coefs")).data.map fun v => v ^ 2).sum / sd fe.name ^ 2).sum

/-- The parameters have the noise levels `σ` and the factor `C` of the correlation of the series. -/
structure NoiseOf {n : Nat} (σ : Fin n → ℝ) (C : Matrix (Fin n) (Fin n) ℝ) (θ : SiteEnv ℝ) : Prop where
  size : (θ "std_observation").data.length = n
  levels : VectorSite (θ "std_observation") σ
  pos : ∀ i, 0 < σ i
  matrix : MatrixSite (θ "corr_matrix") C
  factor : CorrFactor C

end

/-! ## Sums -/

theorem sum_normal_offsets (s : ℝ) : ∀ (a l : List ℝ), l.length = a.length →
    (List.zipWith (fun μ o => normalLP μ s o) a l).sum
      = -((List.zipWith (fun μ o => (o - μ) ^ 2) a l).sum / (2 * s ^ 2))
        + (a.length : ℝ) * (-Real.log s - Real.log (2 * Real.pi) / 2)
  | [], [], _ => by simp
  | [], _ :: _, h => by simp at h
  | _ :: _, [], h => by simp at h
  | μ :: a, v :: l, h => by
    simp only [List.zipWith_cons_cons, List.sum_cons, List.length_cons, Nat.cast_add, Nat.cast_one,
      sum_normal_offsets s a l (by simpa using h)]
    unfold normalLP
    ring

theorem sum_laplace_changes (b : ℝ) : ∀ (a c l : List ℝ), (∀ v ∈ a, v = 0) → (∀ v ∈ c, v = b) →
    a.length = l.length → c.length = l.length →
    (List.zipWith (fun (q : ℝ × ℝ) δ => laplaceLP q.1 q.2 δ) (a.zip c) l).sum
      = (l.map (laplaceLP 0 b)).sum
  | [], [], [], _, _, _, _ => by simp
  | μ :: a, β :: c, v :: l, ha, hc, h1, h2 => by
    simp only [List.zip_cons_cons, List.zipWith_cons_cons, List.sum_cons, List.map_cons,
      ha μ (List.mem_cons_self ..), hc β (List.mem_cons_self ..)]
    rw [sum_laplace_changes b a c l (fun v hv => ha v (List.mem_cons_of_mem _ hv))
      (fun v hv => hc v (List.mem_cons_of_mem _ hv)) (by simpa using h1) (by simpa using h2)]
  | _ :: _, _, [], _, _, h, _ => by simp at h
  | [], _, _ :: _, _, _, h, _ => by simp at h
  | _, _ :: _, [], _, _, _, h => by simp at h
  | _, [], _ :: _, _, _, _, h => by simp at h

theorem weighedError_nonneg {τ : Type} {n : Nat} (σ : Fin n → ℝ) (C : Matrix (Fin n) (Fin n) ℝ) (ts : List τ)
    (obs M : Fin n → τ → ℝ) : 0 ≤ weighedError (panelCovariance σ C) ts obs M := by
  refine List.sum_nonneg fun v hv => ?_
  obtain ⟨t, -, rfl⟩ := List.mem_map.1 hv
  rw [covariance_form]
  exact Finset.sum_nonneg fun i _ => mul_self_nonneg _

theorem sum_density {τ : Type} {n : Nat} (V : Matrix (Fin n) (Fin n) ℝ) (obs M : Fin n → τ → ℝ) : ∀ ts : List τ,
    (ts.map fun t => normalDensity (fun i => M i t) V (fun i => obs i t)).sum
      = (ts.length : ℝ) * (- Real.log V.det / 2 - n * Real.log (2 * Real.pi) / 2)
        - weighedError V ts obs M / 2
  | [] => by simp [weighedError]
  | t :: ts => by
    have ih := sum_density V obs M ts
    unfold weighedError at ih ⊢
    simp only [List.map_cons, List.sum_cons, List.length_cons, Nat.cast_add, Nat.cast_one, ih]
    unfold normalDensity
    have : ((fun i => obs i t) - fun i => M i t) = fun i => obs i t - M i t := rfl
    rw [this]
    ring

/-! ## The theorems -/

section
variable {τ : Type} [LinearOrder τ] {days : τ → ℝ} {p : PiecewiseParams ℝ τ}
  {cfg : HierConfig (Option (PiecewiseState ℝ τ)) (Scale ℝ) τ (Tensor ℝ) ℝ} {mode : String → String}

variable (hV : ValidHier days p cfg) (hM : Modes mode cfg) {y : Frame String τ ℝ}
    (hy : RegularPanel y) {c : String} (hc : y.cols = [c]) {obs : List String → τ → ℝ} (hobs : Observed y c obs)
    {ss : List (List String)} (hss : SeriesOf y ss) (h2 : 2 ≤ ss.length) {ts : List τ} (hts : DatesOf y ts)
    {b : ℝ} (hb : p.priorScale = .scalar b) {X : Option (Frame String τ ℝ)} (hX : GivenExog X ss ts)
    (hcomp : ∀ c ∈ givenCols X, c ∉ cfg.shared → ∃ q, cfg.compile c = .ok q)
    {m : HierFit (Option (PiecewiseState ℝ τ)) (Scale ℝ) τ (Tensor ℝ) ℝ} (hfit : hierFitData cfg y X = .ok m)
    {s : PiecewiseState ℝ τ} (hs : m.trend.st.2 = some s) {x : Frame String τ ℝ}
    (hex : hierExog cfg (aggregate cfg.keep y) X = .ok (m.expand, x))
    {lkj : Nat → ℝ → Tensor ℝ → ℝ} {ns conc os : ℝ} {sd : String → ℝ}

include hV hy hss hts hX hcomp hfit hs in
/-- The changepoint priors of a panel are centred at zero. -/
theorem panel_changes_zero : ∀ v ∈ s.priorLoc, v = 0 := by
  obtain ⟨m', x, s', hfit', h, yB, hloc, hB, hser, hya, hsh, hw, hpf, hsing, hex, -⟩ := hier_fits hV hy hss hts hX hcomp
  rw [hfit] at hfit'
  cases hfit'
  have := h.state
  rw [hs] at this
  cases this
  obtain ⟨tt, cps, y', ya, r, -, -, -, -, -, rfl⟩ := piecewiseFit_inv hpf
  intro v hv
  simp only [priorVectors, List.mem_flatMap] at hv
  obtain ⟨q, -, hq⟩ := hv
  exact List.eq_of_mem_replicate hq

include hV hM hy hc hobs hss h2 hts hb hX hcomp hfit hs hex

/-- The facts about the fitted panel that the theorems use. -/
theorem panel_facts : HierFitted days p ss ts X m x s ∧ s.offsetLoc.length = ss.length ∧
    (∀ v ∈ s.priorLoc, v = 0) ∧ (∀ v ∈ s.priorScale, v = b) ∧
    s.priorLoc.length = (s.cps.map List.length).sum ∧ s.priorScale.length = (s.cps.map List.length).sum ∧
    ∀ (lkj : Nat → ℝ → Tensor ℝ → ℝ) (ns conc os : ℝ) (prior : String → ℝ → ℝ) (θ : SiteEnv ℝ)
        (σ : Fin ss.length → ℝ) (C : Matrix (Fin ss.length) (Fin ss.length) ℝ), HierSizes s m θ →
        NoiseOf σ C θ →
        hierDensity lkj ns conc os prior m θ = .ok (hierPrior os prior s (kept m.fitted) θ
          + (noisePart lkj ns conc ss.length θ + hierLik days mode s ss ts (kept m.fitted) x obs σ C θ)) := by
  obtain ⟨x', s', hex', h, ho, hlu, hF⟩ := hier_posterior hV hM hy hc hobs hss h2 hts
    (by rw [hb]; trivial) hX hcomp hfit
  have hss' := h.state
  rw [hs] at hss'
  cases hss'
  rw [hex] at hex'
  cases Except.ok.inj hex'
  have hscale : ∀ v ∈ s.priorScale, v = b := by
    intro v hv
    obtain ⟨k, hk, rfl⟩ := List.getElem_of_mem hv
    have hk' : k < (s.cps.map List.length).sum := by
      have := hlu.scale
      simp only at this
      omega
    obtain ⟨i, j, cs, hi, hj, he⟩ := flat_position hk'
    have := hlu.own i j cs hi hj
    simp only at this
    rw [he, List.getElem?_eq_getElem hk, hb] at this
    exact Option.some.inj this
  exact ⟨h, ho, panel_changes_zero hV hy hss hts hX hcomp hfit hs, hscale, hlu.loc, hlu.scale,
    fun lkj ns conc os prior θ σ C hz hN => hF lkj ns conc os prior θ σ C hz hN.size hN.levels hN.pos hN.matrix
      hN.factor⟩

variable {σ : Fin ss.length → ℝ} {C : Matrix (Fin ss.length) (Fin ss.length) ℝ}

/-- The log posterior of a panel is a constant minus half the penalised error. -/
theorem panel_penalised {θ₀ : SiteEnv ℝ} (hN₀ : NoiseOf σ C θ₀) : ∃ K : ℝ, ∀ θ : SiteEnv ℝ, HierSizes s m θ →
    θ "std_observation" = θ₀ "std_observation" → θ "corr_matrix" = θ₀ "corr_matrix" →
    hierDensity lkj ns conc os (fun n => normalLP 0 (sd n)) m θ
      = .ok (K - (weighedError (panelCovariance σ C) ts (fun i t => obs (ss.get i) t)
          (fun i t => panelMean days mode s ss (kept m.fitted) x θ (ss.get i) t)
          + panelPrice s m os b sd θ) / 2) := by
  obtain ⟨h, ho, hl0, hsc, hll, hsl, hF⟩ := panel_facts hV hM hy hc hobs hss h2 hts hb hX hcomp hfit hs hex
  refine ⟨(s.offsetLoc.length : ℝ) * (-Real.log os - Real.log (2 * Real.pi) / 2)
      + (((s.cps.map List.length).sum : ℕ) : ℝ) * (-Real.log (2 * b))
      + ((kept m.fitted).map fun fe => ((fe.cols.length : ℕ) : ℝ)
          * (-Real.log (sd fe.name) - Real.log (2 * Real.pi) / 2)).sum
      + noisePart lkj ns conc ss.length θ₀
      + (ts.length : ℝ) * (- Real.log (panelCovariance σ C).det / 2 - ss.length * Real.log (2 * Real.pi) / 2), ?_⟩
  intro θ hz e1 e2
  have hN : NoiseOf σ C θ := ⟨by rw [e1]; exact hN₀.size, by rw [e1]; exact hN₀.levels, hN₀.pos,
    by rw [e2]; exact hN₀.matrix, hN₀.factor⟩
  rw [hF lkj ns conc os _ θ σ C hz hN]
  congr 1
  have hn : noisePart lkj ns conc ss.length θ = noisePart lkj ns conc ss.length θ₀ := by
    unfold noisePart
    rw [e1, e2]
  have q1 := sum_normal_offsets os s.offsetLoc (θ "offset").data (by rw [hz.trend.1, ho, h.changepoints])
  have q2 := sum_laplace_changes b s.priorLoc s.priorScale (θ "changepoint_coefficients").data hl0 hsc
    (by rw [hll, hz.trend.2]) (by rw [hsl, hz.trend.2])
  have q3 := sum_laplace_zero b (θ "changepoint_coefficients").data
  have q4 := sum_effects_split (fun fe : FittedEffect (Option (PiecewiseState ℝ τ)) (Frame String τ ℝ) (Scale ℝ) τ ℝ (Tensor ℝ) ℝ =>
      ((θ (fe.name ++ "/coefs")).data.map (normalLP 0 (sd fe.name))).sum)
    (fun fe => ((θ (fe.name ++ "/coefs")).data.map fun v => v ^ 2).sum / sd fe.name ^ 2)
    (fun fe => ((fe.cols.length : ℕ) : ℝ) * (-Real.log (sd fe.name) - Real.log (2 * Real.pi) / 2))
    (l := kept m.fitted) (by
      intro fe hfe
      obtain ⟨g1, g2⟩ := (hier_kept h).1 hfe
      rw [sum_normal_zero, hz.coefs fe g1 g2]
      ring)
  have q5 := sum_density (panelCovariance σ C) (fun i t => obs (ss.get i) t)
    (fun i t => panelMean days mode s ss (kept m.fitted) x θ (ss.get i) t) ts
  rw [hz.trend.2] at q3
  unfold hierPrior hierLik
  rw [q1, q2, q3, q4, q5, hn]
  unfold panelPrice
  ring

/-- **C131**: for given noise levels and correlation, parameters are a best fit of the panel exactly if
they minimise the weighed error plus the price. -/
theorem C131_penalised {θ : SiteEnv ℝ} (hz : HierSizes s m θ) (hN : NoiseOf σ C θ) :
    BestPanel lkj ns conc os (fun n => normalLP 0 (sd n)) s m θ ↔
      ∀ θ', HierSizes s m θ' → θ' "std_observation" = θ "std_observation" →
        θ' "corr_matrix" = θ "corr_matrix" →
        weighedError (panelCovariance σ C) ts (fun i t => obs (ss.get i) t)
            (fun i t => panelMean days mode s ss (kept m.fitted) x θ (ss.get i) t) + panelPrice s m os b sd θ
          ≤ weighedError (panelCovariance σ C) ts (fun i t => obs (ss.get i) t)
            (fun i t => panelMean days mode s ss (kept m.fitted) x θ' (ss.get i) t) + panelPrice s m os b sd θ' := by
  obtain ⟨K, hK⟩ := panel_penalised (lkj := lkj) (ns := ns) (conc := conc) (os := os) (sd := sd)
    hV hM hy hc hobs hss h2 hts hb hX hcomp hfit hs hex hN
  constructor
  · rintro ⟨-, L, hL, hmax⟩ θ' hz' e1 e2
    have := hmax θ' _ hz' e1 e2 (hK θ' hz' e1 e2)
    rw [hK θ hz rfl rfl] at hL
    cases hL
    linarith
  · intro h
    refine ⟨hz, _, hK θ hz rfl rfl, fun θ' L' hz' e1 e2 hL' => ?_⟩
    rw [hK θ' hz' e1 e2] at hL'
    cases hL'
    have := h θ' hz' e1 e2
    linarith

omit hV hM hy hc hobs hss h2 hts hb hX hcomp hfit hs hex in
theorem panelPrice_nonneg (hb0 : 0 ≤ b) (θ : SiteEnv ℝ) : 0 ≤ panelPrice s m os b sd θ := by
  unfold panelPrice
  refine add_nonneg (add_nonneg (div_nonneg (List.sum_nonneg fun v hv => ?_) (by positivity))
    (div_nonneg (mul_nonneg (by norm_num) (List.sum_nonneg fun v hv => ?_)) hb0))
    (List.sum_nonneg fun v hv => ?_)
  · obtain ⟨k, hk, rfl⟩ := List.getElem_of_mem hv
    rw [List.getElem_zipWith]
    positivity
  · obtain ⟨w, -, rfl⟩ := List.mem_map.1 hv
    positivity
  · obtain ⟨fe, -, rfl⟩ := List.mem_map.1 hv
    refine div_nonneg (List.sum_nonneg fun v hv => ?_) (by positivity)
    obtain ⟨w, -, rfl⟩ := List.mem_map.1 hv
    positivity

/-- **C131**: the best fit of a panel is as good as every other explanation of the history, up to the
price of that explanation; and it costs no more than that explanation, up to the error the latter leaves. -/
theorem C131_oracle (hb0 : 0 ≤ b) {θ : SiteEnv ℝ} (hN : NoiseOf σ C θ)
    (hθ : BestPanel lkj ns conc os (fun n => normalLP 0 (sd n)) s m θ) {θ' : SiteEnv ℝ} (hz' : HierSizes s m θ')
    (e1 : θ' "std_observation" = θ "std_observation") (e2 : θ' "corr_matrix" = θ "corr_matrix") :
    weighedError (panelCovariance σ C) ts (fun i t => obs (ss.get i) t)
          (fun i t => panelMean days mode s ss (kept m.fitted) x θ (ss.get i) t)
        ≤ weighedError (panelCovariance σ C) ts (fun i t => obs (ss.get i) t)
            (fun i t => panelMean days mode s ss (kept m.fitted) x θ' (ss.get i) t) + panelPrice s m os b sd θ' ∧
      panelPrice s m os b sd θ ≤ panelPrice s m os b sd θ'
        + weighedError (panelCovariance σ C) ts (fun i t => obs (ss.get i) t)
            (fun i t => panelMean days mode s ss (kept m.fitted) x θ' (ss.get i) t) := by
  have h := (C131_penalised hV hM hy hc hobs hss h2 hts hb hX hcomp hfit hs hex hθ.1 hN).1 hθ θ' hz' e1 e2
  have h1 := panelPrice_nonneg (s := s) (m := m) (os := os) (sd := sd) hb0 θ
  have h3 := weighedError_nonneg σ C ts (fun i t => obs (ss.get i) t)
    (fun i t => panelMean days mode s ss (kept m.fitted) x θ (ss.get i) t)
  exact ⟨by linarith, by linarith⟩

/-- **C131**: if some parameters explain the histories of all series without error, the weighed error of
the best fit is at most their price, however many dates there are. -/
theorem C131_exact (hb0 : 0 ≤ b) {θ : SiteEnv ℝ} (hN : NoiseOf σ C θ)
    (hθ : BestPanel lkj ns conc os (fun n => normalLP 0 (sd n)) s m θ) {θ' : SiteEnv ℝ} (hz' : HierSizes s m θ')
    (e1 : θ' "std_observation" = θ "std_observation") (e2 : θ' "corr_matrix" = θ "corr_matrix")
    (he : ∀ a ∈ ss, ∀ t ∈ ts, obs a t = panelMean days mode s ss (kept m.fitted) x θ' a t) :
    weighedError (panelCovariance σ C) ts (fun i t => obs (ss.get i) t)
          (fun i t => panelMean days mode s ss (kept m.fitted) x θ (ss.get i) t)
        ≤ panelPrice s m os b sd θ' := by
  have h := (C131_oracle hV hM hy hc hobs hss h2 hts hb hX hcomp hfit hs hex hb0 hN hθ hz' e1 e2).1
  have h0 : weighedError (panelCovariance σ C) ts (fun i t => obs (ss.get i) t)
            (fun i t => panelMean days mode s ss (kept m.fitted) x θ' (ss.get i) t) = 0 := by
    refine List.sum_eq_zero fun v hv => ?_
    obtain ⟨t, ht, rfl⟩ := List.mem_map.1 hv
    have : (fun i => obs (ss.get i) t - panelMean days mode s ss (kept m.fitted) x θ' (ss.get i) t) = 0 := by
      funext i
      rw [he _ (List.get_mem ..) t ht]
      exact sub_self _
    rw [this, zero_dotProduct]
  linarith

/-- Parameters at the centres of their priors, with given noise. -/
def centreSites (n cs : Nat) (offs : List ℝ) (cols : List (String × Nat)) (std corr : Tensor ℝ) : SiteEnv ℝ := fun nm =>
  if nm = "offset" then ⟨[n], offs⟩
  else if nm = "changepoint_coefficients" then ⟨[cs], List.replicate cs 0⟩
  else if nm = "std_observation" then std
  else if nm = "corr_matrix" then corr
  else match cols.find? fun q => q.1 ++ "/coefs" = nm with
    | some q => ⟨[q.2], List.replicate q.2 0⟩
    | none => ⟨[], []⟩

/-- **C131**: bounds known before fitting.  With `W` the weighed deviation of the histories from the
centres of the offsets' priors, the best fit has at most the weighed error `W`; every offset is within its
prior scale times the square root of `W` of its centre, every coefficient is at most its prior scale times
the square root of `W`, and the changes of slope of all series sum to at most half the changepoint prior
scale times `W`. -/
theorem C131_bound (hb0 : 0 < b) (hos : os ≠ 0) (hsd : ∀ n, sd n ≠ 0) {θ : SiteEnv ℝ} (hN : NoiseOf σ C θ)
    (hθ : BestPanel lkj ns conc os (fun n => normalLP 0 (sd n)) s m θ) {W : ℝ}
    (hW : W = weighedError (panelCovariance σ C) ts (fun i t => obs (ss.get i) t)
      fun i _ => s.offsetLoc.getD i 0) :
    weighedError (panelCovariance σ C) ts (fun i t => obs (ss.get i) t)
        (fun i t => panelMean days mode s ss (kept m.fitted) x θ (ss.get i) t) ≤ W ∧
    (∀ i < ss.length, ((θ "offset").data.getD i 0 - s.offsetLoc.getD i 0) ^ 2 ≤ os ^ 2 * W) ∧
    (∀ fe ∈ kept m.fitted, ∀ v ∈ (θ (fe.name ++ "/coefs")).data, v ^ 2 ≤ sd fe.name ^ 2 * W) ∧
    ((θ "changepoint_coefficients").data.map fun v => |v|).sum ≤ b * W / 2 := by
  obtain ⟨h, ho, hl0, hsc, hll, hsl, hF⟩ := panel_facts hV hM hy hc hobs hss h2 hts hb hX hcomp hfit hs hex
  have hnd : ss.Nodup := hss.sorted.imp fun h => ne_of_lt h
  let ψ := centreSites ss.length (s.cps.map List.length).sum s.offsetLoc
    (m.fitted.map fun fe => (fe.name, fe.cols.length)) (θ "std_observation") (θ "corr_matrix")
  have hcoef : ∀ fe ∈ m.fitted, (ψ (fe.name ++ "/coefs")).data = List.replicate fe.cols.length 0 := by
    intro fe hfe
    have hf : (m.fitted.map fun fe => (fe.name, fe.cols.length)).find?
        (fun q => q.1 ++ "/coefs" = fe.name ++ "/coefs") = some (fe.name, fe.cols.length) := by
      cases hq : (m.fitted.map fun fe => (fe.name, fe.cols.length)).find?
          (fun q => q.1 ++ "/coefs" = fe.name ++ "/coefs") with
      | none =>
        have := List.find?_eq_none.1 hq (fe.name, fe.cols.length) (List.mem_map.2 ⟨fe, hfe, rfl⟩)
        simp at this
      | some q =>
        have k1 := List.find?_some hq
        obtain ⟨fe', hfe', rfl⟩ := List.mem_map.1 (List.mem_of_find?_eq_some hq)
        have k2 : fe'.name = fe.name := coefs_inj (by simpa using k1)
        have k3 : fe' = fe := List.inj_on_of_nodup_map h.nodup hfe' hfe k2
        rw [k3]
    simp only [ψ, centreSites]
    rw [if_neg (coefs_ne (by decide)), if_neg (coefs_ne (by decide)), if_neg (coefs_ne (by decide)),
      if_neg (coefs_ne (by decide)), hf]
  have hoff : ψ "offset" = ⟨[ss.length], s.offsetLoc⟩ := by simp [ψ, centreSites]
  have hcps : ψ "changepoint_coefficients" = ⟨[(s.cps.map List.length).sum],
      List.replicate (s.cps.map List.length).sum 0⟩ := by simp [ψ, centreSites]
  have hz : HierSizes s m ψ := ⟨⟨by rw [hoff, h.changepoints]; exact ho, by rw [hcps]; simp⟩,
    fun fe hfe _ => by rw [hcoef fe hfe]; simp⟩
  have hprice : panelPrice s m os b sd ψ = 0 := by
    have h1 : (List.zipWith (fun μ o => (o - μ) ^ 2) s.offsetLoc (ψ "offset").data).sum = 0 := by
      rw [hoff]
      refine List.sum_eq_zero fun v hv => ?_
      obtain ⟨k, hk, rfl⟩ := List.getElem_of_mem hv
      rw [List.getElem_zipWith]
      simp
    have h2 : ((ψ "changepoint_coefficients").data.map fun v => |v|).sum = 0 := by
      rw [hcps]
      simp
    unfold panelPrice
    rw [h1, h2, List.sum_eq_zero]
    · simp
    · intro v hv
      obtain ⟨fe, hfe, rfl⟩ := List.mem_map.1 hv
      rw [hcoef fe (List.mem_filter.1 hfe).1]
      simp
  have hmean : ∀ (i : Fin ss.length) t, panelMean days mode s ss (kept m.fitted) x ψ (ss.get i) t
      = s.offsetLoc.getD i 0 := by
    intro i t
    have htrend : panelTrendAt days s ss ψ (ss.get i) t = s.offsetLoc.getD i 0 := by
      unfold panelTrendAt seriesCoefs
      have hidx : ss.idxOf (ss.get i) = i := List.Nodup.idxOf_getElem hnd _ _
      rw [trendAt_none, hoff, hidx]
      intro z hz
      rw [List.getD_eq_getElem?_getD] at hz
      cases hg : ((s.cps.map List.length).splitLengths (ψ "changepoint_coefficients").data)[ss.idxOf (ss.get i)]? with
      | none => rw [hg] at hz; simp at hz
      | some v =>
        rw [hg] at hz
        have := mem_splitLengths (List.mem_of_getElem? hg) hz
        rw [hcps] at this
        exact List.eq_of_mem_replicate this
    unfold panelMean
    rw [htrend, List.sum_eq_zero, add_zero]
    intro z hz
    obtain ⟨fe, hfe, rfl⟩ := List.mem_map.1 hz
    rw [hcoef fe (List.mem_filter.1 hfe).1, dot_none _ fun z hz => List.eq_of_mem_replicate hz]
    unfold combine
    split <;> simp
  have key := C131_oracle hV hM hy hc hobs hss h2 hts hb hX hcomp hfit hs hex hb0.le hN hθ hz
    (by simp [ψ, centreSites]) (by simp [ψ, centreSites])
  rw [hprice] at key
  simp only [hmean] at key
  rw [← hW, add_zero, zero_add] at key
  obtain ⟨k1, k2⟩ := key
  have p1 : 0 ≤ (List.zipWith (fun μ o => (o - μ) ^ 2) s.offsetLoc (θ "offset").data).sum / os ^ 2 := by
    refine div_nonneg (List.sum_nonneg fun v hv => ?_) (by positivity)
    obtain ⟨k, hk, rfl⟩ := List.getElem_of_mem hv
    rw [List.getElem_zipWith]
    positivity
  have p2 : 0 ≤ 2 * ((θ "changepoint_coefficients").data.map fun v => |v|).sum / b := by
    refine div_nonneg (mul_nonneg (by norm_num) (List.sum_nonneg fun v hv => ?_)) hb0.le
    obtain ⟨w, -, rfl⟩ := List.mem_map.1 hv
    positivity
  have p3' : ∀ v ∈ (kept m.fitted).map fun fe =>
      ((θ (fe.name ++ "/coefs")).data.map fun v => v ^ 2).sum / sd fe.name ^ 2, 0 ≤ v := by
    intro v hv
    obtain ⟨fe, -, rfl⟩ := List.mem_map.1 hv
    refine div_nonneg (List.sum_nonneg fun v hv => ?_) (by positivity)
    obtain ⟨w, -, rfl⟩ := List.mem_map.1 hv
    positivity
  have p3 := List.sum_nonneg p3'
  unfold panelPrice at k2
  refine ⟨k1, fun i hi => ?_, fun fe hfe v hv => ?_, ?_⟩
  · have q1 : (List.zipWith (fun μ o => (o - μ) ^ 2) s.offsetLoc (θ "offset").data).sum / os ^ 2 ≤ W := by linarith
    rw [div_le_iff₀ (by positivity)] at q1
    have hi1 : i < s.offsetLoc.length := by omega
    have hi2 : i < (θ "offset").data.length := by rw [hθ.1.trend.1, h.changepoints]; exact hi
    have q2 : ((θ "offset").data.getD i 0 - s.offsetLoc.getD i 0) ^ 2
        ≤ (List.zipWith (fun μ o => (o - μ) ^ 2) s.offsetLoc (θ "offset").data).sum := by
      refine List.single_le_sum (fun v hv => ?_) _ ?_
      · obtain ⟨k, hk, rfl⟩ := List.getElem_of_mem hv
        rw [List.getElem_zipWith]
        positivity
      · refine List.mem_iff_getElem.2 ⟨i, by simp; omega, ?_⟩
        rw [List.getElem_zipWith, List.getD_eq_getElem _ _ hi1, List.getD_eq_getElem _ _ hi2]
    linarith
  · have q1 := List.single_le_sum p3' _ (List.mem_map.2 ⟨fe, hfe, rfl⟩)
    have q2 : ((θ (fe.name ++ "/coefs")).data.map fun v => v ^ 2).sum / sd fe.name ^ 2 ≤ W := by linarith
    have := hsd fe.name
    rw [div_le_iff₀ (by positivity)] at q2
    have q3 : v ^ 2 ≤ ((θ (fe.name ++ "/coefs")).data.map fun v => v ^ 2).sum := by
      refine List.single_le_sum (fun v hv => ?_) _ (List.mem_map.2 ⟨v, hv, rfl⟩)
      obtain ⟨w, -, rfl⟩ := List.mem_map.1 hv
      positivity
    linarith
  · have q1 : 2 * ((θ "changepoint_coefficients").data.map fun v => |v|).sum / b ≤ W := by linarith
    rw [div_le_iff₀ hb0] at q1
    linarith

omit hV hM hy hc hobs hss h2 hts hb hX hcomp hfit hs hex in
/-- **C131**: without correlation the weighed error is the sum of the squared errors of the series, each over
the fourth power of its noise level: the code multiplies the factor of the correlation by the noise levels from
both sides (see C46). -/
theorem C131_uncorrelated {n : Nat} {σ : Fin n → ℝ} (hσ : ∀ i, 0 < σ i) (ts : List τ) (obs M : Fin n → τ → ℝ) :
    weighedError (panelCovariance σ 1) ts obs M
      = ∑ i, (ts.map fun t => (obs i t - M i t) ^ 2).sum / σ i ^ 4 := by
  have hinv : (panelCovariance σ (1 : Matrix (Fin n) (Fin n) ℝ))⁻¹ = diagonal fun i => (σ i ^ 4)⁻¹ := by
    rw [panelCovariance_one]
    refine Matrix.inv_eq_right_inv ?_
    rw [diagonal_mul_diagonal, ← diagonal_one]
    congr 1
    funext i
    exact mul_inv_cancel₀ (pow_pos (hσ i) 4).ne'
  unfold weighedError
  rw [hinv]
  induction ts with
  | nil => simp
  | cons t ts ih =>
    simp only [List.map_cons, List.sum_cons, ih]
    unfold dotProduct
    rw [← Finset.sum_add_distrib]
    refine Finset.sum_congr rfl fun i _ => ?_
    rw [mulVec_diagonal]
    ring

/-! ## A case -/

/-- Two products with different noise levels and correlated noise: a best fit exists, and the theorems apply
to it. -/
example : ∃ m s x θ, hierFitData exCfg114 exY113 (some exX113) = .ok m ∧
    BestPanel (fun _ _ _ => 0) 1 1 (1 / 10) (fun _ => normalLP 0 2) s m θ ∧ NoiseOf ![1, 2] exL46 θ ∧
    ((θ "changepoint_coefficients").data.map fun v => |v|).sum
      ≤ 1 / 10 * weighedError (panelCovariance ![1, 2] exL46) [0, 1]
          (fun i t => cellAt exY113 ([["p"], ["q"]].get i) t "y") (fun i _ => s.offsetLoc.getD i 0) / 2 ∧
    ∀ θ', HierSizes s m θ' → θ' "std_observation" = θ "std_observation" → θ' "corr_matrix" = θ "corr_matrix" →
      weighedError (panelCovariance ![1, 2] exL46) [0, 1] (fun i t => cellAt exY113 ([["p"], ["q"]].get i) t "y")
          (fun i t => panelMean (fun t : ℤ => (t : ℝ)) (fun _ => "additive") s [["p"], ["q"]] (kept m.fitted) x θ
            ([["p"], ["q"]].get i) t) + panelPrice s m (1 / 10) (1 / 10) (fun _ => 2) θ
        ≤ weighedError (panelCovariance ![1, 2] exL46) [0, 1] (fun i t => cellAt exY113 ([["p"], ["q"]].get i) t "y")
          (fun i t => panelMean (fun t : ℤ => (t : ℝ)) (fun _ => "additive") s [["p"], ["q"]] (kept m.fitted) x θ'
            ([["p"], ["q"]].get i) t) + panelPrice s m (1 / 10) (1 / 10) (fun _ => 2) θ' := by
  have hX := exExog113 (ts := [0, 1]) (by simp) (by simp) (by simp)
  have hc : ∀ c ∈ givenCols (some exX113), c ∉ exCfg114.shared → ∃ q, exCfg114.compile c = .ok q :=
    fun _ _ _ => ⟨_, rfl⟩
  have k1 : VectorSite (n := 2) ⟨[2], [1, 2]⟩ ![1, 2] := ⟨rfl, fun i => by fin_cases i <;> rfl⟩
  have k2 : ∀ i, (0 : ℝ) < ![1, 2] i := fun i => by fin_cases i <;> simp
  have k3 : MatrixSite (exθ90 "corr_matrix") exL46 := ⟨rfl, fun i j => by fin_cases i <;> fin_cases j <;> rfl⟩
  have hobs : Observed exY113 "y" fun a t => cellAt exY113 a t "y" :=
    fun r hr _ => cellAt_of_mem exPanel113.ordered hr (by simp [exY113])
  obtain ⟨m, s, h1, hs, h⟩ := C114_exists exValid114 exModes114 exPanel113 exSeries113 (by simp) exDates113
    (b := 1 / 10) rfl (by norm_num) hX hc
  obtain ⟨θ, h2, h3, h4⟩ := h (fun _ _ _ => 0) 1 1 (1 / 10) (fun _ => normalLP 0 2) (by norm_num)
    (fun _ => continuous_normalLP 0 2) (fun _ => tendsto_normalLP 0 two_ne_zero) ⟨[2], [1, 2]⟩
    (exθ90 "corr_matrix") ![1, 2] exL46 rfl k1 k2 k3 exL46_factor
  have hN : NoiseOf (n := 2) ![1, 2] exL46 θ := ⟨by rw [h2]; rfl, by rw [h2]; exact k1, k2, by rw [h3]; exact k3, exL46_factor⟩
  obtain ⟨x, s', hex, h', -⟩ := hier_posterior exValid114 exModes114 exPanel113 rfl hobs exSeries113 (by simp) exDates113
    trivial hX hc h1
  have := h'.state
  rw [hs] at this
  cases this
  refine ⟨m, s, x, θ, h1, h4, hN, ?_, ?_⟩
  · exact (C131_bound exValid114 exModes114 exPanel113 rfl hobs exSeries113 (by simp) exDates113 (b := 1 / 10) rfl hX hc
      h1 hs hex (by norm_num) (by norm_num) (sd := fun _ => 2) (fun _ => two_ne_zero) hN h4 rfl).2.2.2
  · exact (C131_penalised exValid114 exModes114 exPanel113 rfl hobs exSeries113 (by simp) exDates113 (b := 1 / 10) rfl hX hc
      h1 hs hex (sd := fun _ => 2) h4.1 hN).1 h4

end
end PV
