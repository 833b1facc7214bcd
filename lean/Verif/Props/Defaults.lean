import Verif.Model.Defaults

/-!
# C87: documented defaults

`Doc`: the defaults that the class documentation states.  The claim: an object created without an
argument behaves like one created with the documented value.
-/

namespace PV

/-- The defaults stated in the documentation. -/
structure Doc where
  /-- `effects/linear.py` 25 -/
  linearPrior : ℝ → ℝ := normalLP 0 1
  /-- `effects/linear.py` 27 -/
  linearMode : String := "multiplicative"
  /-- `effects/fourier.py` 31 -/
  fourierScale : ℝ := 1
  /-- `effects/fourier.py` 33 -/
  fourierMode : String := "additive"
  /-- `effects/trend/flat.py` 21 -/
  flatScale : ℝ := 0.1
  /-- `effects/trend/piecewise.py` 48 -/
  linearOffset : ℝ := 0.1
  /-- `effects/trend/piecewise.py` 460 -/
  logisticOffset : ℝ := 0.1
  /-- `effects/trend/piecewise.py` 50 and 462 -/
  squeeze : Bool := true
  /-- `effects/trend/piecewise.py` 53 and 465 -/
  removeSeasonality : Bool := true

noncomputable def doc : Doc := {}

/-- **C87**, where it holds: leaving out these arguments is the same as passing the documented
value, whatever the other arguments are.  Missing: the prior of `LinearEffect` and
`offset_prior_scale` of `PiecewiseLogisticTrend`, for which the claim is false. -/
theorem C87_partial (prior : Option (ℝ → ℝ)) (scale offset : Option ℝ) (mode : Option String)
    (b1 b2 : Option Bool) :
    linearInit none prior = linearInit (some doc.linearMode) prior ∧
    fourierInit none mode = fourierInit (some doc.fourierScale) mode ∧
    fourierInit scale none = fourierInit scale (some doc.fourierMode) ∧
    flatInit none = flatInit (some doc.flatScale) ∧
    piecewiseInit none b1 b2 = piecewiseInit (some doc.linearOffset) b1 b2 ∧
    (∀ b, piecewiseInit offset none b = piecewiseInit offset (some doc.squeeze) b) ∧
    (∀ b, piecewiseInit offset b none = piecewiseInit offset b (some doc.removeSeasonality)) ∧
    (∀ b, logisticInit offset prior none b = logisticInit offset prior (some doc.squeeze) b) ∧
    (∀ b, logisticInit offset prior b none
      = logisticInit offset prior b (some doc.removeSeasonality)) := by
  simp [linearInit, fourierInit, flatInit, piecewiseInit, logisticInit, doc]

/-- An argument that is passed is used: it is not replaced by a default. -/
theorem C87_passed_partial (prior : ℝ → ℝ) (scale offset : ℝ) (mode : String) (b1 b2 : Bool) :
    (linearInit (some mode) (some prior)).prior = prior ∧
    (linearInit (some mode) (some prior)).effectMode = mode ∧
    (fourierInit (some scale) (some mode)).linear.prior = normalLP 0 scale ∧
    (fourierInit (some scale) (some mode)).linear.effectMode = mode ∧
    flatInit (some scale) = scale ∧
    (piecewiseInit (some offset) (some b1) (some b2)).offsetScale = offset ∧
    (piecewiseInit (some offset) (some b1) (some b2)).squeeze = b1 ∧
    (piecewiseInit (some offset) (some b1) (some b2)).removeSeasonality = b2 ∧
    (logisticInit (some offset) (some prior) (some b1) (some b2)).offsetScale = offset ∧
    (logisticInit (some offset) (some prior) (some b1) (some b2)).squeeze = b1 ∧
    (logisticInit (some offset) (some prior) (some b1) (some b2)).removeSeasonality = b2 ∧
    (logisticInit (some offset) (some prior) (some b1) (some b2)).capacityPrior = prior := by
  simp [linearInit, linearPriorOr, fourierInit, FourierObject.linear, flatInit, piecewiseInit,
    logisticInit]

/-- Normal densities of different scales differ at the centre. -/
theorem normalLP_scale_ne {m a b : ℝ} (ha : 0 < a) (hb : 0 < b) (h : a ≠ b) :
    normalLP m a m ≠ normalLP m b m := by
  unfold normalLP
  intro he
  refine h (Real.log_injOn_pos ha hb ?_)
  simp only [sub_self, ne_eq, OfNat.ofNat_ne_zero, not_false_eq_true, zero_pow, zero_div] at he
  linarith

/-- **C87**, the default prior of the capacity of `PiecewiseLogisticTrend`: the upper half of the
normal distribution with location 1.05 and standard deviation 0.2, whatever the other arguments
are.  (The documented "HalfNormal with loc=1.05 and scale=1" agrees in the location.) -/
theorem C87_capacity (offset : Option ℝ) (b1 b2 : Option Bool) (x : ℝ) :
    Real.exp ((logisticInit offset none b1 b2).capacityPrior x)
      = 2 * Real.exp (normalLP 1.05 0.2 x) := by
  have : (logisticInit offset none b1 b2).capacityPrior x = Real.log 2 + normalLP 1.05 0.2 x := by
    simp only [logisticInit, Option.getD_none, shiftedHalfNormalLP, halfNormalLP, normalLP, sub_zero]
  rw [this, Real.exp_add, Real.exp_log (by norm_num)]

/-- **C87 is false for `LinearEffect`**: the documented prior is Normal(0, 1), the one used is
Normal(0, 0.1); the log density of the coefficients is different for an effect on one column. -/
theorem C87_linear_refuted :
    ∃ (θ : SiteEnv ℝ) (d : Tensor ℝ) (s s' : List Stmt),
      linearPriors (linearInit none none).prior θ (.data d) [] = .ok s ∧
      linearPriors (linearInit none (some doc.linearPrior)).prior θ (.data d) [] = .ok s' ∧
      logDensity s ≠ logDensity s' := by
  refine ⟨fun _ => ⟨[1], [0]⟩, ⟨[1, 1], [1]⟩, _, _, rfl, rfl, ?_⟩
  have h := normalLP_scale_ne (m := 0) (a := 0.1) (b := 1) (by norm_num) (by norm_num) (by norm_num)
  simpa [logDensity, Stmt.logProb, linearInit, linearPriorOr, doc] using h

/-- **C87 is false for `PiecewiseLogisticTrend`**: the documented scale of the prior of the offset is
0.1, the one used is 10. -/
theorem C87_logistic_refuted :
    ∃ (θ : SiteEnv ℝ) (st : PiecewiseState ℝ ℤ) (d : Tensor ℝ) (s s' : List Stmt),
      logisticPriors (logisticInit none none none none).capacityPrior
        (logisticInit none none none none).offsetScale (some st) θ (.data d) [] = .ok s ∧
      logisticPriors (logisticInit (some doc.logisticOffset) none none none).capacityPrior
        (logisticInit (some doc.logisticOffset) none none none).offsetScale (some st) θ (.data d) []
          = .ok s' ∧
      logDensity s ≠ logDensity s' := by
  refine ⟨fun _ => ⟨[1], [0]⟩, ⟨⟨1, 0, 1⟩, [[0]], [0], [0], [0], [1], none⟩, ⟨[1, 1], [1]⟩, _, _,
    rfl, rfl, ?_⟩
  have h := normalLP_scale_ne (m := 0) (a := 10) (b := 0.1) (by norm_num) (by norm_num)
    (by norm_num)
  simpa [logDensity, Stmt.logProb, logisticInit, piecewiseInit, doc] using h

/-- The two effects that the seasonality of the documentation's defaults stands for. -/
example : (fourierInit none none).linear.effectMode = "additive" ∧
    (fourierInit none none).linear.prior = normalLP 0 1 :=
  ⟨rfl, rfl⟩

end PV
