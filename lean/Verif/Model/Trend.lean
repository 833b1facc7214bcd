import Mathlib.Algebra.Order.Floor.Defs
import Mathlib.Algebra.Order.Floor.Semiring
import Mathlib.Algebra.Order.Ring.Defs
import Verif.Model.EffectBase

/-!
# Trends (`effects/trend/base.py`, `effects/trend/flat.py`, `effects/trend/piecewise.py`)

Arithmetic is exact (an ordered field), not floating point.
-/

namespace PV
open Tensor

/-! ## Time -/

section
variable {K τ : Type} [Field K] [LinearOrder K]

/-- `convert_index_to_days_since_epoch` for an index that is neither `PeriodIndex` nor
`DatetimeIndex` (`utils/frame_to_array.py` 37-38): integers are used as they are. -/
def daysOfInt (n : ℤ) : K := n

/-- `convert_index_to_days_since_epoch` for a `DatetimeIndex`, given by nanoseconds since the epoch
(`utils/frame_to_array.py` 43); a `PeriodIndex` is the index of the starts of its periods. -/
def daysOfNs (n : ℤ) : K := ((n / 1000000000 : ℤ) : K) / 86400

/-- Attributes set by `TrendEffectMixin._fit`. (`effects/trend/base.py` 43-48.) -/
structure TrendTime (K : Type) where
  scale : K
  start : K
  nSeries : Nat

/-- `t[1:] - t[:-1]`. (`effects/trend/base.py` 43.) -/
def diffs : List K → List K
  | a :: b :: l => (b - a) :: diffs (b :: l)
  | _ => []

/-- `y.index.droplevel(-1).nunique()`, or 1 for a plain time index
(`effects/trend/base.py` 45-48). -/
def nSeriesOf {ι V : Type} (y : Frame ι τ V) : Nat := if y.nlevels > 1 then y.series.length else 1

/-- `TrendEffectMixin._fit` (`effects/trend/base.py` 26-48).  `days` is
`convert_index_to_days_since_epoch`.  With fewer than two times, or if the differences average to 0,
the code goes on with NaN. -/
def trendTimeFit [DecidableEq τ] {ι V : Type} (days : τ → K) (y : Frame ι τ V) : PyM (TrendTime K) :=
  match (unique y.times).map days with
  | [] => .error .nonFinite
  | d :: ds =>
    let scale := (diffs (d :: ds)).sum / (ds.length : K)
    if ds = [] ∨ scale = 0 then .error .nonFinite
    else .ok ⟨scale, ds.foldl min d / scale, nSeriesOf y⟩

/-- `_index_to_scaled_timearray` on one time (`effects/trend/base.py` 50-68). -/
def TrendTime.scaled (tt : TrendTime K) (days : τ → K) (t : τ) : K := days t / tt.scale - tt.start

/-! ## Changepoints -/

/-- A parameter that is a number or a list of numbers (one per series).
(`effects/trend/piecewise.py` 563-582.) -/
inductive ScalarOr (K : Type) where
  | scalar (a : K)
  | list (l : List K)
  deriving DecidableEq, Repr

/-- `_to_list_if_scalar` (`effects/trend/piecewise.py` 563-582). -/
def ScalarOr.toList {K : Type} (x : ScalarOr K) (size : Nat) : List K :=
  match x with
  | .scalar a => List.replicate size a
  | .list l => l

/-- `arange(0, stop, step)`.  `step = 0` is an exception in numpy; here it gives no value, which is
an exception of `setupChangepoints`. (`effects/trend/piecewise.py` 716.) -/
def arange [FloorSemiring K] (stop step : K) : List K :=
  (List.range ⌈stop / step⌉₊).map fun i : Nat => (i : K) * step

/-- The upper limit in `_get_changepoint_timeindexes` (`effects/trend/piecewise.py` 709-714). -/
def changepointLimit (tmax range : K) : K :=
  if range < 1 ∧ range > 0 then tmax * range
  else if range ≥ 1 then range
  else tmax + range

/-- `_get_changepoint_timeindexes` (`effects/trend/piecewise.py` 687-717).  `t.max()` of an empty
array is a `ValueError`. -/
def changepointTimes [FloorSemiring K] (t : List K) (interval range : K) : PyM (List K) :=
  match t with
  | [] => .error .valueError
  | a :: l => .ok (arange (changepointLimit (l.foldl max a) range) interval)

/-- Loop body of `_setup_changepoints` (`effects/trend/piecewise.py` 311-329). -/
def changepointsOf [FloorSemiring K] (t : List K) (p : K × K) : PyM (List K) := do
  let c ← changepointTimes t p.1 p.2
  if c = [] then throw .valueError else pure c

/-- The loop of `_setup_changepoints` over `zip(intervals, ranges)`. (`effects/trend/piecewise.py` 311-331.) -/
def changepointsAll [FloorSemiring K] (t : List K) : List (K × K) → PyM (List (List K))
  | [] => .ok []
  | p :: ps => do
    let c ← changepointsOf t p
    let cs ← changepointsAll t ps
    pure (c :: cs)

/-- `_setup_changepoints` (`effects/trend/piecewise.py` 290-331). -/
def setupChangepoints [FloorSemiring K] (t : List K) (nSeries : Nat) (interval range : ScalarOr K) :
    PyM (List (List K)) :=
  changepointsAll t ((interval.toList nSeries).zip (range.toList nSeries))

/-- One entry of `_get_changepoint_matrix` (`effects/trend/piecewise.py` 680-683). -/
def rampEntry (t c : K) : K := max ((if t ≥ c then 1 else 0) * t - c + 1) 0

/-- One row of design matrix times mask for series `i` (`effects/trend/piecewise.py` 271-288). -/
def maskedRow (cps : List (List K)) (i : Nat) (t : K) : List K :=
  let start := ((cps.take i).map List.length).sum
  let stop := start + ((cps[i]?).map List.length).getD 0
  cps.flatten.zipIdx.map fun cj =>
    rampEntry t cj.1 * (if start ≤ cj.2 ∧ cj.2 < stop then 1 else 0)

/-- `_get_multivariate_changepoint_matrix` (`effects/trend/piecewise.py` 250-288).
`np.concatenate([])` is a `ValueError`. -/
def changepointTensor (cps : List (List K)) (t : List K) : PyM (Tensor K) :=
  if cps = [] then .error .valueError
  else .ok ⟨[cps.length, t.length, cps.flatten.length],
    (List.range cps.length).flatMap fun i => t.flatMap fun s => maskedRow cps i s⟩

/-- `get_changepoint_matrix` (`effects/trend/piecewise.py` 205-226) on scaled times. -/
def changepointMatrix (squeeze : Bool) (cps : List (List K)) (t : List K) : PyM (Tensor K) := do
  let m ← changepointTensor cps t
  if m.shape.head? = some 1 ∧ squeeze then pure ⟨m.shape.tail, m.data⟩ else pure m

/-! ## Priors -/

/-- `_get_changepoint_prior_vectors` (`effects/trend/piecewise.py` 350-404): location and scale
vector.  `x.at[0].set(first_value)` returns a new array that is dropped, so `first_value` is not
used. -/
def priorVectors (cps : List (List K)) (rates : List K) (priorScale : ScalarOr K) : List K × List K :=
  let ns := cps.map List.length
  ((ns.zip rates).flatMap fun p => List.replicate p.1 0,
   (ns.zip (priorScale.toList cps.length)).flatMap fun p => List.replicate p.1 p.2)

/-- `y_array[:, j]` of an array of shape `(n_series, n_times, 1)`. (`effects/trend/piecewise.py` 427, 430.) -/
def column (y : Tensor K) (j : Nat) : List K :=
  (List.range (y.shape.headD 0)).map fun i => (y.get? [i, j, 0]).getD 0

/-- `_suggest_global_trend_and_offset` (`effects/trend/piecewise.py` 406-432) of the linear trend:
rates and offsets per series, for scaled times `t`. -/
def suggestLinear (t : List K) (y : Tensor K) : PyM (List K × List K) :=
  match t.head?, t.getLast? with
  | some t0, some t1 =>
    if t0 = t1 then .error .nonFinite
    else
      let first := column y 0
      let last := column y (y.shape.getD 1 0 - 1)
      let rates := List.zipWith (fun a b => (b - a) / (t0 - t1)) first last
      .ok (rates, List.zipWith (fun a k => a - k * t0) first rates)
  | _, _ => .error .indexError

/-! ## The piecewise linear trend as an effect -/

/-- Constructor parameters of the piecewise trends.  `detrend` is the replacement of `y` by
`y - Detrender().fit_transform(y)` (sktime), if wanted. (`effects/trend/piecewise.py` 58-76.) -/
structure PiecewiseParams (K τ : Type) where
  interval : ScalarOr K
  range : ScalarOr K
  priorScale : ScalarOr K
  squeeze : Bool
  detrend : Option (Frame String τ K → PyM (Frame String τ K))

/-- Attributes after `_fit`. (`effects/trend/piecewise.py` 95-105, 331, 350-356.) -/
structure PiecewiseState (K τ : Type) where
  time : TrendTime K
  cps : List (List K)
  rates : List K
  offsetLoc : List K
  priorLoc : List K
  priorScale : List K
  series : Option (List (List String))

/-- `y - detrender.fit_transform(y)` if wanted (`effects/trend/piecewise.py` 346-348). -/
def detrended (p : PiecewiseParams K τ) (y : Frame String τ K) : PyM (Frame String τ K) :=
  match p.detrend with
  | none => .ok y
  | some f => f y

/-- `PiecewiseLinearTrend._fit` (`effects/trend/piecewise.py` 78-105, 333-356).  `suggest` is
`_suggest_global_trend_and_offset` as a function of the scaled times and the target array. -/
def piecewiseFit [DecidableEq τ] [FloorSemiring K] (days : τ → K)
    (suggest : List K → Tensor K → PyM (List K × List K)) (p : PiecewiseParams K τ)
    (y : Frame String τ K) : PyM (PiecewiseState K τ) := do
  let tt ← trendTimeFit days y
  let t := (unique y.times).map (tt.scaled days)
  let cps ← setupChangepoints t tt.nSeries p.interval p.range
  let y' ← detrended p y
  let ya ← y'.seriesToTensor
  let s ← suggest ((unique y'.times).map (tt.scaled days)) ya
  let pv := priorVectors cps s.1 p.priorScale
  pure ⟨tt, cps, s.1, s.2, pv.1, pv.2, if y.nlevels > 1 then some y.series else none⟩

/-- The times of `_fh_to_index(fh)` as `_index_to_scaled_timearray` reads them
(`effects/trend/piecewise.py` 107-139, `effects/trend/base.py` 64-65). -/
def fhTimes [DecidableEq τ] (series : Option (List (List String))) (fh : List τ) : List τ :=
  match series with
  | none => fh
  | some ss => unique ((product ss fh).map Prod.snd)

/-- `_transform` (`effects/trend/piecewise.py` 141-158). -/
def piecewiseTransform [DecidableEq τ] (days : τ → K) (squeeze : Bool) (s : PiecewiseState K τ)
    (fh : List τ) : PyM (Tensor K) :=
  changepointMatrix squeeze s.cps ((fhTimes s.series fh).map (s.time.scaled days))

/-- `t.reshape((-1, 1, 1))`. (`effects/trend/piecewise.py` 194.) -/
def asSeriesColumn (t : Tensor K) : Tensor K := ⟨[t.data.length, 1, 1], t.data⟩

/-- `PiecewiseLinearTrend._predict` (`effects/trend/piecewise.py` 160-203) for the given values of
the sites `offset` and `changepoint_coefficients`. -/
def piecewisePredict (squeeze : Bool) (nSeries : Nat) : EffectCall (Tensor K) K := fun θ m _ => do
  let trend ← if m.ndim = 3 then do
      let r ← dotLast m (θ "changepoint_coefficients").data
      Tensor.binop (· + ·) ⟨r.shape ++ [1], r.data⟩ (asSeriesColumn (θ "offset"))
    else do
      let r ← dotLast m (θ "changepoint_coefficients").data
      Tensor.binop (· + ·) r (θ "offset")
  if trend.ndim = 1 ∨ (trend.ndim = 3 ∧ nSeries = 1 ∧ squeeze) then trend.reshapeInfer 1
  else pure trend

/-! ## The flat trend -/

/-- `FlatTrend._fit` (`effects/trend/flat.py` 28-41): `y.mean().values` with one target column. -/
def flatFit (y : Frame String τ K) (target : String) : PyM K :=
  if y.rows = [] then .error .nonFinite
  else .ok ((y.rows.map fun r => r.val target).sum / (y.rows.length : K))

/-- `FlatTrend._transform` (`effects/trend/flat.py` 43-57). -/
def flatTransform {V : Type} (x : Frame String τ V) : Tensor K :=
  ⟨[x.rows.length, 1], List.replicate x.rows.length 1⟩

/-- The parameters of the prior in `FlatTrend._predict` (`effects/trend/flat.py` 77-81):
concentration and rate of a gamma distribution. -/
def flatPrior (loc scale : K) : K × K :=
  let rate := loc / scale ^ 2
  (loc * rate, rate)

/-- `FlatTrend._predict` (`effects/trend/flat.py` 59-91). -/
def flatPredict : EffectCall (Tensor K) K := fun θ data _ =>
  Tensor.binop (· * ·) data (θ "trend_flat_coefficient")

end
end PV
