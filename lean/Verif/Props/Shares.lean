import Mathlib.Tactic.FieldSimp
import Mathlib.Tactic.LinearCombination
import Verif.Props.BestBalance

/-!
# C129: regressors that cannot be told apart share their effect
-/

set_option linter.unusedSectionVars false

namespace PV
open Tensor

/-! ## Specification -/

section
variable {τ : Type}

/-- What the model sees of the `j`-th feature of an effect at a date: a wave of a seasonality or a column. -/
noncomputable def featureAt (position : τ → ℤ) (kind : String → EffectKind) (y x : Frame String τ ℝ)
    [LinearOrder τ] (fe : FittedEffect (UsualAttrs τ) (Frame String τ ℝ) (Scale ℝ) τ ℝ (AnyData ℝ) ℝ) (j : Nat)
    (t : τ) : ℝ :=
  ((kind fe.name).features position (firstPosition position y.times) fe.cols t (rowAt x t)).getD j 0

/-- The coefficient of the `j`-th feature of an effect. -/
noncomputable def coefOf (θ : SiteEnv ℝ)
    (fe : FittedEffect (UsualAttrs τ) (Frame String τ ℝ) (Scale ℝ) τ ℝ (AnyData ℝ) ℝ) (j : Nat) : ℝ :=
  (θ (fe.name ++ "/coefs")).data.getD j 0

end

theorem sum_map_scaled {α : Type} (f g : α → ℝ) (k : ℝ) : ∀ {l : List α}, (∀ a ∈ l, g a = k * f a) →
    (l.map g).sum = k * (l.map f).sum
  | [], _ => by simp
  | a :: l, h => by
    simp only [List.map_cons, List.sum_cons, h a (List.mem_cons_self ..),
      sum_map_scaled f g k fun b hb => h b (List.mem_cons_of_mem _ hb)]
    ring

/-! ## The theorems -/

section
variable {τ : Type} [LinearOrder τ]
variable {position : τ → ℤ} {compile : String → PyM (String → Bool)}
  {order : List String → List String} {days : τ → ℝ}
  {suggest : List ℝ → Tensor ℝ → PyM (List ℝ × List ℝ)}
  {p : PiecewiseParams ℝ τ} {kind : String → EffectKind}
  {cfg : UniConfig (UsualAttrs τ) (Scale ℝ) τ ℝ (AnyData ℝ) ℝ} {y : Frame String τ ℝ} {c : String}
  {X : Option (Frame String τ ℝ)} {x : Frame String τ ℝ}
  {m : UniFit (UsualAttrs τ) (Scale ℝ) τ ℝ (AnyData ℝ) ℝ}

variable (hU : Usual position compile order days suggest p kind cfg)
  (hT : Training cfg y c X x) (hfit : uniFitData cfg y X = .ok m) {b : ℝ} (hb : p.priorScale = .scalar b)
  (hw : ∀ n ss mode s, kind n = .seasonal ss mode s → waves ss ≠ [])
  {s : PiecewiseState ℝ τ} {cs : List ℝ} (hs : m.trend.st.2 = .piecewise (some s)) (hcs : s.cps = [cs])
  {ns scale os : ℝ} {N : ℝ → Prop} {θ : SiteEnv ℝ} {L : ℝ}
  (hθ : BestIn kind .normal cs ns scale os N m θ L) (hσ : 0 < siteScalar θ "noise_scale")
  {fe fe' : FittedEffect (UsualAttrs τ) (Frame String τ ℝ) (Scale ℝ) τ ℝ (AnyData ℝ) ℝ}
  (hfe : fe ∈ usedEffects kind m) (hfe' : fe' ∈ usedEffects kind m) {r r' : ℝ} (hr : r ≠ 0) (hr' : r' ≠ 0)
  (hpr : (kind fe.name).prior = normalLP 0 r) (hpr' : (kind fe'.name).prior = normalLP 0 r')
  {j j' : Nat} (hj : j < (kind fe.name).size fe.cols) (hj' : j' < (kind fe'.name).size fe'.cols)

section
include hU hT hfit hb hw hs hcs hθ hσ hfe hr hpr hj

/-- A feature whose influence is nowhere felt in the history has the coefficient zero. -/
theorem C129_unseen (h0 : ∀ row ∈ y.rows, featureAt position kind y x fe j row.time = 0) :
    coefOf θ fe j = 0 := by
  obtain ⟨s', cs', hs', hcs', hF⟩ := usual_formula_any hU hT hfit hb
  rw [hs] at hs'
  cases hs'
  rw [hcs] at hcs'
  cases hcs'
  obtain ⟨μ, hμ, -⟩ := hF _ _ _ _ _ _ hθ.1.trend hθ.2.2.1
  have h := C121_effect hU hT hfit hb hw hs hcs hμ hθ hσ hfe hr hpr hj
  rw [List.sum_eq_zero, zero_div] at h
  · unfold coefOf
    have hr2 : r ^ 2 ≠ 0 := pow_ne_zero 2 hr
    field_simp at h
    linarith
  · intro v hv
    obtain ⟨row, hrow, rfl⟩ := List.mem_map.1 hv
    have := h0 row hrow
    unfold featureAt at this
    rw [this, mul_zero, mul_zero]

end

include hU hT hfit hb hw hs hcs hθ hσ hfe hfe' hr hr' hpr hpr' hj hj'

/-- **C129.** If on the dates of the history one feature is `κ` times another (of the same or of another
effect of the same mode), their coefficients in a best fit are in the ratio `κ` times that of the prior
variances. -/
theorem C129_share (hmode : (kind fe'.name).modeOf = (kind fe.name).modeOf) (κ : ℝ)
    (hκ : ∀ row ∈ y.rows, featureAt position kind y x fe' j' row.time
      = κ * featureAt position kind y x fe j row.time) :
    coefOf θ fe' j' / r' ^ 2 = κ * (coefOf θ fe j / r ^ 2) := by
  obtain ⟨s', cs', hs', hcs', hF⟩ := usual_formula_any hU hT hfit hb
  rw [hs] at hs'
  cases hs'
  rw [hcs] at hcs'
  cases hcs'
  obtain ⟨μ, hμ, -⟩ := hF _ _ _ _ _ _ hθ.1.trend hθ.2.2.1
  have h := C121_effect hU hT hfit hb hw hs hcs hμ hθ hσ hfe hr hpr hj
  have h' := C121_effect hU hT hfit hb hw hs hcs hμ hθ hσ hfe' hr' hpr' hj'
  unfold coefOf
  rw [← h, ← h', hmode, ← mul_div_assoc]
  congr 1
  refine sum_map_scaled _ _ _ fun row hrow => ?_
  have := hκ row hrow
  unfold featureAt at this
  rw [this]
  ring

/-- Copies of one regressor with the same prior get the same coefficient: each carries its share. -/
theorem C129_copies (hmode : (kind fe'.name).modeOf = (kind fe.name).modeOf) (hrr : r' ^ 2 = r ^ 2)
    (he : ∀ row ∈ y.rows, featureAt position kind y x fe' j' row.time = featureAt position kind y x fe j row.time) :
    coefOf θ fe' j' = coefOf θ fe j := by
  have h := C129_share hU hT hfit hb hw hs hcs hθ hσ hfe hfe' hr hr' hpr hpr' hj hj' hmode 1
    fun row hrow => by rw [he row hrow, one_mul]
  have hr2 : r ^ 2 ≠ 0 := pow_ne_zero 2 hr
  rw [hrr, one_mul] at h
  field_simp at h
  exact h

/-- If `t` is a date where the proportion no longer holds, each feature keeps its own share of the effect:
the two together contribute `r² f + κ r'² f'` in units of the common pull. -/
theorem C129_together (hmode : (kind fe'.name).modeOf = (kind fe.name).modeOf) (κ : ℝ)
    (hκ : ∀ row ∈ y.rows, featureAt position kind y x fe' j' row.time
      = κ * featureAt position kind y x fe j row.time) (t : τ) :
    coefOf θ fe j * featureAt position kind y x fe j t + coefOf θ fe' j' * featureAt position kind y x fe' j' t
      = coefOf θ fe j / r ^ 2 * (r ^ 2 * featureAt position kind y x fe j t
          + κ * r' ^ 2 * featureAt position kind y x fe' j' t) := by
  have h := C129_share hU hT hfit hb hw hs hcs hθ hσ hfe hfe' hr hr' hpr hpr' hj hj' hmode κ hκ
  have hr2 : r ^ 2 ≠ 0 := pow_ne_zero 2 hr
  have hr2' : r' ^ 2 ≠ 0 := pow_ne_zero 2 hr'
  have e : coefOf θ fe' j' = κ * (coefOf θ fe j / r ^ 2) * r' ^ 2 := by
    rw [← h, div_mul_cancel₀ _ hr2']
  rw [e]
  field_simp

end

/-! ## Example

The columns `a` and `b` of the example are equal on the three days of the history and `e` is zero. -/

example : ∃ m s cs fe θ L, uniFitData exCfg95 exY85 (some exX97) = .ok m ∧
    m.trend.st.2 = .piecewise (some s) ∧ s.cps = [cs] ∧ fe ∈ usedEffects exKind95 m ∧ fe.cols = ["a", "b", "e"] ∧
    BestIn exKind95 .normal cs (1 / 2) 1 (1 / 10) (· = 1) m θ L ∧ coefOf θ fe 1 = coefOf θ fe 0 ∧ coefOf θ fe 2 = 0 := by
  obtain ⟨m, s, cs, hm, hs, hcs, -⟩ := exBest98
  obtain ⟨fe, hfe, hn, hc, -⟩ := exCols97 hm
  have hk : exKind95 fe.name = .linear "multiplicative" (normalLP 0 1) := by
    rw [hn]
    rfl
  have hu : fe ∈ usedEffects exKind95 m := List.mem_filter.2 ⟨hfe, by rw [hk, hc]; rfl⟩
  obtain ⟨θ, L, hθ⟩ := bestIn_exists exUsual95 (.inl rfl) exTraining97 hm (b := 2) rfl (by norm_num)
      exWaves98 exContinuous98 exTendsto98 hs hcs (1 / 2) 1 1 (os := 1 / 10) (by norm_num)
  have hσ : 0 < siteScalar θ "noise_scale" := by
    rw [show siteScalar θ "noise_scale" = 1 from hθ.2.1]
    norm_num
  have hsize : ∀ j < 3, j < (exKind95 fe.name).size fe.cols := by
    intro j hj
    rw [hk, hc]
    exact hj
  have hpr : (exKind95 fe.name).prior = normalLP 0 1 := by rw [hk]; rfl
  have hfeat : ∀ j t, featureAt id exKind95 exY85 exX97 fe j t
      = (["a", "b", "e"].map (rowAt exX97 t)).getD j 0 := by
    intro j t
    unfold featureAt
    rw [hk, hc]
    rfl
  refine ⟨m, s, cs, fe, θ, L, hm, hs, hcs, hu, hc, hθ, ?_, ?_⟩
  · refine C129_copies exUsual95 exTraining97 hm rfl exWaves98 hs hcs hθ hσ hu hu one_ne_zero one_ne_zero hpr hpr
      (hsize 0 (by norm_num)) (hsize 1 (by norm_num)) rfl rfl fun row hrow => ?_
    rw [hfeat, hfeat]
    simp only [exY85, List.mem_cons, List.not_mem_nil, or_false] at hrow
    rcases hrow with rfl | rfl | rfl <;> simp [rowAt, exX97]
  · refine C129_unseen exUsual95 exTraining97 hm rfl exWaves98 hs hcs hθ hσ hu one_ne_zero hpr
      (hsize 2 (by norm_num)) fun row hrow => ?_
    rw [hfeat]
    simp only [exY85, List.mem_cons, List.not_mem_nil, or_false] at hrow
    rcases hrow with rfl | rfl | rfl <;> simp [rowAt, exX97]

end PV
