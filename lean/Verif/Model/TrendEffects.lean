import Verif.Model.Effects
import Verif.Model.Trend
import Verif.Model.World

/-!
# The trends and the linear effect as effect classes

`PiecewiseLinearTrend`, `PiecewiseLogisticTrend`, `FlatTrend` and `LinearEffect` with the interface
of `BaseEffect`.
The attributes set by `_fit` are an `Option`: before `fit` they do not exist.
-/

namespace PV
section
variable {K τ V : Type} [Field K] [LinearOrder K]

/-- `PiecewiseLinearTrend` (`effects/trend/piecewise.py` 78-203); `_fit` overwrites every attribute.
`suggest` and `predict` are what `PiecewiseLogisticTrend` overrides. -/
def piecewiseClass [DecidableEq τ] [FloorSemiring K] (days : τ → K)
    (suggest : List K → Tensor K → PyM (List K × List K))
    (predict : Bool → Nat → EffectCall (Tensor K) K) (p : PiecewiseParams K τ) :
    EffectClass (Option (PiecewiseState K τ)) (Frame String τ K) (Scale K) τ V (Tensor K) K where
  tags := trendTags
  fit := fun _ y _ _ => (piecewiseFit days suggest p y).map some
  transform := fun s _ fh =>
    match s with
    | none => .error .attributeError
    | some s => piecewiseTransform days p.squeeze s fh
  call := fun st θ d pe =>
    match st.2, d with
    | some s, .data m => predict p.squeeze s.time.nSeries θ m pe
    | _, _ => .error .attributeError

/-- `FlatTrend` (`effects/trend/flat.py` 28-91); the attribute is the prior location. -/
def flatClass :
    EffectClass (Option K) (Frame String τ K) (Scale K) τ V (Tensor K) K where
  tags := trendTags
  fit := fun _ y _ _ => (flatFit y (y.cols.headD "")).map some
  transform := fun _ x _ => .ok (flatTransform x)
  call := fun st θ d pe =>
    match st.2, d with
    | some _, .data m => flatPredict θ m pe
    | _, _ => .error .attributeError

/-- `LinearEffect` (`effects/linear.py`): no attributes of its own. -/
def linearClass {S : Type} (mode : String) :
    EffectClass S (Frame String τ K) (Scale K) τ K (Tensor K) K where
  tags := linearTags
  fit := fun s _ _ _ => .ok s
  transform := fun _ x _ => x.seriesToTensorOrArray
  call := fun _ => AddMul.call ⟨mode, linearRaw⟩

/-- A new object of a class whose constructor sets no attribute of its own and runs
`BaseEffect.__init__`. (`effects/base.py` 85-87, 335-345.) -/
def EffectClass.new {S Y Sc D : Type} (c : EffectClass (Option S) Y Sc τ V D K) :
    EffectObj (Option S) Y Sc τ V D K :=
  { cls := c, made := (.init, none), st := (.init, none) }

end
end PV
