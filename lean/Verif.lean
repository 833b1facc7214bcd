import Verif.Model.Aggregate
import Verif.Model.AnyEffect
import Verif.Model.Broadcast
import Verif.Model.Config
import Verif.Model.CurveEffects
import Verif.Model.Defaults
import Verif.Model.Density
import Verif.Model.Detrend
import Verif.Model.EffectBase
import Verif.Model.Effects
import Verif.Model.Engine
import Verif.Model.EngineSettings
import Verif.Model.Expand
import Verif.Model.FitEffects
import Verif.Model.Forecast
import Verif.Model.Fourier
import Verif.Model.FourierFeatures
import Verif.Model.Frame
import Verif.Model.FrameToArray
import Verif.Model.Horizon
import Verif.Model.Introspect
import Verif.Model.Lift
import Verif.Model.LiftEffect
import Verif.Model.Likelihood
import Verif.Model.Logistic
import Verif.Model.Mean
import Verif.Model.MultiIndex
import Verif.Model.Multivariate
import Verif.Model.MultivariateData
import Verif.Model.PanelDensity
import Verif.Model.Params
import Verif.Model.PredictFrames
import Verif.Model.Py
import Verif.Model.Regex
import Verif.Model.Scaling
import Verif.Model.SeasonalMode
import Verif.Model.Tensor
import Verif.Model.TimeArrays
import Verif.Model.Trace
import Verif.Model.Trend
import Verif.Model.TrendEffects
import Verif.Model.UnivariateData
import Verif.Model.Update
import Verif.Model.Variants
import Verif.Model.Vectorize
import Verif.Model.World
import Verif.Spec.Density
import Verif.Spec.Draws
import Verif.Spec.EffectData
import Verif.Spec.Learned
import Verif.Spec.Panel
import Verif.Spec.PanelDensity
import Verif.Spec.PanelPointwise
import Verif.Spec.Pointwise
import Verif.Spec.Predict
import Verif.Spec.Quantile
import Verif.Spec.Regex
import Verif.Spec.RegularPanel
import Verif.Spec.Scaling
import Verif.Spec.SiteNames
import Verif.Spec.Starts
import Verif.Spec.World
import Verif.Lemmas.AfterFit
import Verif.Lemmas.Aggregate
import Verif.Lemmas.AnyEffect
import Verif.Lemmas.Broadcast
import Verif.Lemmas.Calendar
import Verif.Lemmas.CalendarFrames
import Verif.Lemmas.CalendarWorld
import Verif.Lemmas.Coercive
import Verif.Lemmas.Dict
import Verif.Lemmas.Distributions
import Verif.Lemmas.Draws
import Verif.Lemmas.EffectData
import Verif.Lemmas.ExRel
import Verif.Lemmas.Exchange
import Verif.Lemmas.Expand
import Verif.Lemmas.FitEffects
import Verif.Lemmas.Frame
import Verif.Lemmas.Gamma
import Verif.Lemmas.GammaBounds
import Verif.Lemmas.LiftEffect
import Verif.Lemmas.LiftWorks
import Verif.Lemmas.Mean
import Verif.Lemmas.Mix
import Verif.Lemmas.Moved
import Verif.Lemmas.MovedFit
import Verif.Lemmas.MovedScale
import Verif.Lemmas.MultiNormal
import Verif.Lemmas.Natural
import Verif.Lemmas.NegBinomial
import Verif.Lemmas.Panel
import Verif.Lemmas.Params
import Verif.Lemmas.PredictFrames
import Verif.Lemmas.Quantile
import Verif.Lemmas.QuantileOrder
import Verif.Lemmas.Regex
import Verif.Lemmas.SameBottom
import Verif.Lemmas.Scaling
import Verif.Lemmas.ScalingInferred
import Verif.Lemmas.SiteCoords
import Verif.Lemmas.Sites
import Verif.Lemmas.Smooth
import Verif.Lemmas.SortedPanel
import Verif.Lemmas.Tensor
import Verif.Lemmas.Trend
import Verif.Lemmas.TrendTensor
import Verif.Lemmas.UnitChange
import Verif.Lemmas.WaveNames
import Verif.Lemmas.World
import Verif.Lemmas.WorldFit
import Verif.Lemmas.WorldInv
import Verif.Props.AggregateSpread
import Verif.Props.BestBalance
import Verif.Props.BestFit
import Verif.Props.BestNoise
import Verif.Props.Calendar
import Verif.Props.Changepoints
import Verif.Props.Coherence
import Verif.Props.Components
import Verif.Props.ComponentsLearned
import Verif.Props.Config
import Verif.Props.CountTargets
import Verif.Props.Counts
import Verif.Props.Coverage
import Verif.Props.CurvesWork
import Verif.Props.Defaults
import Verif.Props.Defined
import Verif.Props.Densities
import Verif.Props.Detrend
import Verif.Props.EffectData
import Verif.Props.EffectModes
import Verif.Props.Effects
import Verif.Props.EmptyExog
import Verif.Props.EndToEnd
import Verif.Props.Engine
import Verif.Props.Expand
import Verif.Props.FarFuture
import Verif.Props.Features
import Verif.Props.FitEffects
import Verif.Props.Fourier
import Verif.Props.Grouping
import Verif.Props.Horizon
import Verif.Props.InSample
import Verif.Props.InSampleRagged
import Verif.Props.IntervalWidth
import Verif.Props.Isolation
import Verif.Props.Labels
import Verif.Props.Learned
import Verif.Props.Lift
import Verif.Props.LiftBest
import Verif.Props.LiftTests
import Verif.Props.LiftUnmatched
import Verif.Props.LiftWorks
import Verif.Props.Logistic
import Verif.Props.MeanSum
import Verif.Props.Mirror
import Verif.Props.MissingRows
import Verif.Props.Moments
import Verif.Props.MoreEffects
import Verif.Props.MultiIndex
import Verif.Props.Multivariate
import Verif.Props.NamedParams
import Verif.Props.NearBest
import Verif.Props.NoContribution
import Verif.Props.NoiseLimit
import Verif.Props.NoiseLine
import Verif.Props.ObsLayout
import Verif.Props.OneSeries
import Verif.Props.OwnRows
import Verif.Props.Panel
import Verif.Props.PanelBalance
import Verif.Props.PanelBest
import Verif.Props.PanelDefined
import Verif.Props.PanelFit
import Verif.Props.PanelFitted
import Verif.Props.PanelForecast
import Verif.Props.PanelFuture
import Verif.Props.PanelGrown
import Verif.Props.PanelLearned
import Verif.Props.PanelLogistic
import Verif.Props.PanelMore
import Verif.Props.PanelMoved
import Verif.Props.PanelNoFit
import Verif.Props.PanelOrder
import Verif.Props.PanelPenalised
import Verif.Props.PanelPosterior
import Verif.Props.PanelProper
import Verif.Props.PanelSaturation
import Verif.Props.PanelSeparate
import Verif.Props.PanelShares
import Verif.Props.PanelShown
import Verif.Props.PanelStable
import Verif.Props.PanelStableLine
import Verif.Props.PanelTable
import Verif.Props.PanelUnits
import Verif.Props.Params
import Verif.Props.Penalised
import Verif.Props.Pipeline
import Verif.Props.Pointwise
import Verif.Props.Positive
import Verif.Props.PositiveBest
import Verif.Props.Posterior
import Verif.Props.PosteriorOrder
import Verif.Props.PosteriorProper
import Verif.Props.PriorOnly
import Verif.Props.PriorScale
import Verif.Props.Quantiles
import Verif.Props.Regex
import Verif.Props.SameBottom
import Verif.Props.Samples
import Verif.Props.SamplingError
import Verif.Props.Scaling
import Verif.Props.Seasonality
import Verif.Props.SeriesOrder
import Verif.Props.SessionOthers
import Verif.Props.SharedFeatures
import Verif.Props.Shares
import Verif.Props.ShownFit
import Verif.Props.ShownSaturation
import Verif.Props.ShownTable
import Verif.Props.SingleSeries
import Verif.Props.SiteNames
import Verif.Props.Sites
import Verif.Props.Spread
import Verif.Props.Stable
import Verif.Props.StableLine
import Verif.Props.TimeArrays
import Verif.Props.Trend
import Verif.Props.TrendContinuity
import Verif.Props.TrendFitted
import Verif.Props.TrendPriors
import Verif.Props.TrendTime
import Verif.Props.UniqueFit
import Verif.Props.UnitChange
import Verif.Props.UnivariateData
import Verif.Props.Update
import Verif.Props.UsualDefined
import Verif.Props.UsualExamples
import Verif.Props.UsualFit
import Verif.Props.UsualModel
import Verif.Props.UsualWorks
import Verif.Props.Variants
import Verif.Props.Vectorize
import Verif.Props.WhatIf
import Verif.Props.World
import Verif.Props.WrongMode
