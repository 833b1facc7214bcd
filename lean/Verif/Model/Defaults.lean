import Verif.Model.Density

/-!
# Constructors of effects and trends

Keyword arguments that have a default value are options here, `none` meaning that the caller left
them out or, where the code treats `None` alike, passed `None`.  A distribution is represented by
its log density.  Distributions define no truth value, so `prior or default` is `default` exactly if
`prior` is `None`.
-/

namespace PV

/-- Attributes of a `LinearEffect` (`effects/linear.py` 34-41). -/
structure LinearObject where
  effectMode : String
  prior : ℝ → ℝ

/-- `LinearEffect.__init__` (`effects/linear.py` 34-41). -/
noncomputable def linearInit (effectMode : Option String) (prior : Option (ℝ → ℝ)) : LinearObject :=
  { effectMode := effectMode.getD "multiplicative", prior := linearPriorOr prior }

/-- Attributes of a `LinearFourierSeasonality` that have defaults (`effects/fourier.py` 45-58). -/
structure FourierObject where
  priorScale : ℝ
  effectMode : String

/-- `LinearFourierSeasonality.__init__` (`effects/fourier.py` 45-58), arguments with defaults. -/
def fourierInit (priorScale : Option ℝ) (effectMode : Option String) : FourierObject :=
  { priorScale := priorScale.getD 1, effectMode := effectMode.getD "additive" }

/-- The linear effect that a seasonality creates in `_fit` (`effects/fourier.py` 90-92). -/
noncomputable def FourierObject.linear (o : FourierObject) : LinearObject :=
  linearInit (some o.effectMode) (some (normalLP 0 o.priorScale))

/-- `FlatTrend.__init__` (`effects/trend/flat.py` 24-26): the prior scale. -/
noncomputable def flatInit (scale : Option ℝ) : ℝ := scale.getD 0.1

/-- Attributes of a piecewise trend that have defaults (`effects/trend/piecewise.py` 57-75). -/
structure PiecewiseObject where
  offsetScale : ℝ
  squeeze : Bool
  removeSeasonality : Bool

/-- `PiecewiseLinearTrend.__init__` (`effects/trend/piecewise.py` 57-75), arguments with
defaults. -/
noncomputable def piecewiseInit (offsetScale : Option ℝ) (squeeze removeSeasonality : Option Bool) :
    PiecewiseObject :=
  { offsetScale := offsetScale.getD 0.1, squeeze := squeeze.getD true
    removeSeasonality := removeSeasonality.getD true }

/-- The density of `TransformedDistribution(HalfNormal(s), AffineTransform(loc, 1))`, on its support
(`effects/trend/piecewise.py` 480-486). -/
noncomputable def shiftedHalfNormalLP (loc s x : ℝ) : ℝ := halfNormalLP s (x - loc)

/-- Attributes of a logistic trend that have defaults. (`effects/trend/piecewise.py` 471-496.) -/
structure LogisticObject extends PiecewiseObject where
  capacityPrior : ℝ → ℝ

/-- `PiecewiseLogisticTrend.__init__` (`effects/trend/piecewise.py` 471-496), arguments with
defaults. -/
noncomputable def logisticInit (offsetScale : Option ℝ) (capacityPrior : Option (ℝ → ℝ))
    (squeeze removeSeasonality : Option Bool) : LogisticObject :=
  { piecewiseInit (some (offsetScale.getD 10)) squeeze removeSeasonality with
    capacityPrior := capacityPrior.getD (shiftedHalfNormalLP 1.05 0.2) }

end PV
