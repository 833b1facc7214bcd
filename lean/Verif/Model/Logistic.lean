import Mathlib.Analysis.SpecialFunctions.Log.Basic
import Verif.Model.Trend

/-!
# The piecewise logistic trend (`effects/trend/piecewise.py` 435-661)

Real numbers, not floating point.
-/

namespace PV
open Tensor

/-- `capacity / (1 + exp(-trend))` on one entry (`effects/trend/piecewise.py` 559). -/
noncomputable def logisticOf (capacity x : ℝ) : ℝ := capacity / (1 + Real.exp (-x))

/-- `PiecewiseLogisticTrend._predict` (`effects/trend/piecewise.py` 536-560) for the given values of
the sites; the site `capacity` has shape `(n_series, 1, 1)` because of the plate in dimension -3. -/
noncomputable def logisticPredict (squeeze : Bool) (nSeries : Nat) : EffectCall (Tensor ℝ) ℝ :=
  fun θ m p => do
    let trend ← piecewisePredict squeeze nSeries θ m p
    let cap : Tensor ℝ := if nSeries = 1 then ⟨[], (θ "capacity").data⟩ else θ "capacity"
    Tensor.binop (fun x c => logisticOf c x) trend cap

/-- `np.log(capacity / y - 1)` is NaN (`effects/trend/piecewise.py` 645-656). -/
def logNaN (cap y : ℝ) : Prop := if y = 0 then cap ≤ 0 else cap / y < 1

/-- `np.log(capacity / y - 1)` is infinite. (`effects/trend/piecewise.py` 645-649.) -/
def logInf (cap y : ℝ) : Prop := y = 0 ∨ cap / y = 1

open Classical in
/-- If a first value is 0, all of them are replaced (`effects/trend/piecewise.py` 642-643). -/
noncomputable def avoidZero (first : List ℝ) : List ℝ :=
  if 0 ∈ first then first.map fun _ => (1e-8 : ℝ) else first

open Classical in
/-- `_suggest_logistic_rate_and_offset` (`effects/trend/piecewise.py` 604-661) for one number
`cap` as capacity, scaled times `t` and targets `y` of shape `(n_series, n_times, 1)`: rates and
offsets per series.  The code goes on with infinities where this has `.nonFinite`. -/
noncomputable def suggestLogisticAt (cap : ℝ) (t : List ℝ) (y : Tensor ℝ) :
    PyM (List ℝ × List ℝ) :=
  match t with
  | [] => .error .valueError
  | a :: l =>
    let t0 := l.foldl min a
    let t1 := l.foldl max a
    let i0 := t.idxOf t0
    let i1 := t.idxOf t1
    if y.shape.getD 1 0 ≤ i0 ∨ y.shape.getD 1 0 ≤ i1 then .error .indexError
    else
      let y0 := avoidZero (column y i0)
      let y1 := column y i1
      if ∃ v ∈ y0 ++ y1, logNaN cap v then .error .valueError
      else if t0 = t1 ∨ ∃ v ∈ y0 ++ y1, logInf cap v then .error .nonFinite
      else
        let L := fun v => Real.log (cap / v - 1)
        let k := List.zipWith (fun a b => (L b - L a) / (t0 - t1)) y0 y1
        .ok (k, List.zipWith (fun b k => -(L b + k * t1)) y1 k)

/-- The capacity used for the suggestion: the `loc` of the capacity prior if it has one, otherwise
1.05 times the largest target (`effects/trend/piecewise.py` 523-526). -/
noncomputable def suggestedCapacity (loc : Option ℝ) (y : Tensor ℝ) : PyM ℝ :=
  match loc, y.data with
  | some c, _ => .ok c
  | none, [] => .error .valueError
  | none, a :: l => .ok (l.foldl max a * 1.05)

/-- `PiecewiseLogisticTrend._suggest_global_trend_and_offset`
(`effects/trend/piecewise.py` 498-534). -/
noncomputable def suggestLogistic (loc : Option ℝ) (t : List ℝ) (y : Tensor ℝ) :
    PyM (List ℝ × List ℝ) := do
  let cap ← suggestedCapacity loc y
  suggestLogisticAt cap t y

end PV
