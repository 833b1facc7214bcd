import Verif.Model.PredictFrames

/-! # Specification vocabulary for forecast frames -/

namespace PV
variable {K τ : Type}

/-- The series for which a fitted forecaster produces forecasts before aggregation: the
single anonymous series of flat data, otherwise the distinct series of the training index,
without aggregates for the hierarchical forecaster. -/
def forecastSeries (ctx : Fitted K) : List (List String) :=
  if ctx.yNlevels = 1 then [[]]
  else (unique ctx.internalSids).filter fun s =>
    !(ctx.hierarchical && s.getLast? == some "__total")

/-- `k` is the factor turning model units of series `sid` into units of `y`. -/
def ScaleIs [One K] (ctx : Fitted K) (sid : List String) (k : K) : Prop :=
  (ctx.discrete = true ∧ k = 1) ∨
  (ctx.discrete = false ∧ ctx.scale = .float k) ∨
  (ctx.discrete = false ∧ ∃ e, ctx.scale = .table e ∧
    (e.find? fun p => p.1 = sid) = some (sid, k))

end PV
