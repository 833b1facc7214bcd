import Mathlib.Algebra.Order.Field.Basic
import Mathlib.Algebra.Order.Group.Abs
import Verif.Model.Frame

/-!
# Target scaling (`sktime/base.py` 448-553)
-/

namespace PV

/-- Value of `self._scale`.  Python distinguishes `float`, `int` and a pandas object with
one entry per series (`table`). (`sktime/base.py` 468-482, 514, 550.) -/
inductive Scale (K : Type) where
  | float (x : K)
  | int (n : Int)
  | table (entries : List (List String × K))
  deriving DecidableEq, Repr

section
variable {K τ : Type} [Field K] [LinearOrder K]

/-- `np.abs(x).max()`; `none` for an empty series. (`sktime/base.py` 471, 474.) -/
def maxAbs? : List K → Option K
  | [] => none
  | x :: xs => some (xs.foldl (fun m v => max m |v|) |x|)

/-- The values of the (single) target column. (`sktime/base.py` 471.) -/
def targetVals (y : Frame String τ K) (rows : List (Row String τ K)) : List K :=
  rows.map fun r => r.val (y.cols.headD "")

/-- `y.groupby(level=series levels).agg(lambda x: np.abs(x).max())`
(`sktime/base.py` 473-475).  Pandas sorts the groups; the order is irrelevant because the
result is only looked up by label. -/
def groupMaxAbs (y : Frame String τ K) : List (List String × K) :=
  y.series.filterMap fun s => (maxAbs? (targetVals y (y.rowsOf s))).map fun m => (s, m)

/-- The scale before zeros are replaced (`sktime/base.py` 468-475).  `user` is the
constructor argument `scale`.  An empty target (rejected earlier by sktime) is a
`ValueError`. -/
def rawScale (user : Option (Scale K)) (y : Frame String τ K) : PyM (Scale K) :=
  match user with
  | some s => .ok s
  | none =>
    if y.nlevels = 1 then
      match maxAbs? (targetVals y y.rows) with
      | some m => .ok (.float m)
      | none => .error .valueError
    else .ok (.table (groupMaxAbs y))

/-- Zeros become one (`sktime/base.py` 477-482).  A zero `float` or `int` is replaced by
the *int* `1`; the entries of a pandas object keep their type. -/
def zeroToOne : Scale K → Scale K
  | .float x => if x = 0 then .int 1 else .float x
  | .int n => if n = 0 then .int 1 else .int n
  | .table e => .table (e.map fun p => (p.1, if p.2 = 0 then 1 else p.2))

/-- `_set_y_scales` (`sktime/base.py` 448-482). -/
def setYScales (user : Option (Scale K)) (y : Frame String τ K) : PyM (Scale K) :=
  match rawScale user y with
  | .ok s => .ok (zeroToOne s)
  | .error e => .error e

/-- `scale.loc[label]` for one row label. (`sktime/base.py` 517, 552.) -/
def lookupScale (e : List (List String × K)) (s : List String) : PyM K :=
  match e.find? (fun p => p.1 = s) with
  | some p => pure p.2
  | none => throw .keyError

/-- Scale of every row: `self._scale.loc[y.index.droplevel(-1)].values`
(`sktime/base.py` 517, 552).  An `int` has no attribute `loc`; `droplevel` on a one-level
index is a `ValueError`. -/
def rowScales {ι V : Type} (s : Scale K) (y : Frame ι τ V) : PyM (List K) :=
  match s with
  | .float x => pure (y.rows.map fun _ => x)
  | .int _ => throw .attributeError
  | .table e =>
    if y.nlevels = 1 then throw .valueError
    else y.rows.mapM fun r => lookupScale e r.sid

/-- Combine every row with its scale. (`sktime/base.py` 518, 553.) -/
def applyScales {ι V W : Type} (g : V → K → W) (y : Frame ι τ V) (ss : List K) : Frame ι τ W :=
  { nlevels := y.nlevels, cols := y.cols,
    rows := List.zipWith (fun r s => ⟨r.sid, r.time, fun c => g (r.val c) s⟩) y.rows ss }

/-- `_scale_y` (`sktime/base.py` 484-518).  `discrete` is `_likelihood_is_discrete`. -/
def scaleY (discrete : Bool) (s : Scale K) (y : Frame String τ K) : PyM (Frame String τ K) :=
  if discrete then pure y else do
    let ss ← rowScales s y
    pure (applyScales (fun v k => v / k) y ss)

/-- `_inv_scale_y` (`sktime/base.py` 520-553); applied to frames with any column type
(samples, sites). -/
def invScaleY {ι : Type} (discrete : Bool) (s : Scale K) (y : Frame ι τ K) : PyM (Frame ι τ K) :=
  if discrete then pure y else do
    let ss ← rowScales s y
    pure (applyScales (fun v k => v * k) y ss)

end
end PV
