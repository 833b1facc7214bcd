import Mathlib.Data.List.Sort
import Mathlib.Data.Prod.Lex
import Mathlib.Data.String.Basic
import Mathlib.Order.Lex
import Mathlib.Algebra.Order.Floor.Ring
import Verif.Model.Scaling

/-!
# From posterior draws to forecast frames (`sktime/base.py` 274-446, 555-623, 724-764,
`sktime/multivariate.py` 349-407)
-/

namespace PV

/-- The label reserved by sktime for aggregate series.
(`sktime/multivariate.py` 389, `utils/multiindex.py` 32-33.) -/
def totalLabel : String := "__total"

/-- What prediction needs to know about the fitted forecaster.
* `yNlevels`: `self._y.index.nlevels`;
* `internalSids`: the series labels of `self.internal_y_indexes_` (one per row);
* `hierarchical`: `HierarchicalProphet` (bottom-up) or a univariate forecaster;
* `discrete`, `scale`: see `Scaling`. (`sktime/base.py` 242, 517, 547-552, 606-615.) -/
structure Fitted (K : Type) where
  yNlevels : Nat
  internalSids : List (List String)
  hierarchical : Bool
  discrete : Bool
  scale : Scale K

/-- `_filter_series_tuples`: identity (`sktime/base.py` 625-643), or drop the aggregates
(`sktime/multivariate.py` 368-390).  The caller has made the labels tuples. -/
def filterSeriesTuples (hierarchical : Bool) (l : List (List String)) : List (List String) :=
  if hierarchical then l.filter fun s => s.getLast? ≠ some totalLabel else l

/-- `periodindex_to_multiindex` (`sktime/base.py` 592-623).  `series_id_tuples[0]` is an
`IndexError` on an empty index. -/
def periodindexToMultiindex {K τ : Type} (ctx : Fitted K) (fh : List τ) :
    PyM (List (List String × τ)) :=
  if ctx.yNlevels = 1 then .ok (fh.map fun t => ([], t))
  else
    match unique ctx.internalSids with
    | [] => .error .indexError
    | s :: ss => .ok (product (filterSeriesTuples ctx.hierarchical (s :: ss)) fh)

/-- `n_series` (`sktime/multivariate.py` 392-407), from the number of levels and the series labels of
`internal_y_indexes_`. -/
def nSeries (nlevels : Nat) (internalSids : List (List String)) : Nat :=
  if nlevels = 1 then 1 else (filterSeriesTuples true (unique internalSids)).length

/-- `df.sort_index()`: rows sorted (stably) by the label tuple, compared
lexicographically. (`sktime/base.py` 328, 444.) -/
def sortIndex {ι τ V : Type} [LinearOrder τ] (f : Frame ι τ V) : Frame ι τ V :=
  { f with rows := f.rows.insertionSort fun a b =>
      toLex (a.sid, a.time) ≤ toLex (b.sid, b.time) }

/-- `pd.DataFrame(data=<2-d array>, columns=range(n), index=idx)`: `ValueError` when the
number of rows of the array and the length of the index differ. (`sktime/base.py` 440-444.) -/
def frameOfMatrix {K τ : Type} [Zero K] (nl : Nat) (d : List K) (m n : Nat)
    (idx : List (List String × τ)) : PyM (Frame Nat τ K) :=
  if m = idx.length then
    .ok { nlevels := nl, cols := List.range n,
          rows := List.zipWith (fun i (k : List String × τ) =>
            (⟨k.1, k.2, fun s => d.getD (i * n + s) 0⟩ : Row Nat τ K)) (List.range m) idx }
  else .error .valueError

section
variable {K τ : Type} [Field K] [LinearOrder K] [LinearOrder τ]

/-- `predict_samples` (`sktime/base.py` 415-446), given the draws of the observation site
(`predictive_samples_["obs"]`, first axis: samples) and the horizon as index. -/
def predictSamples (ctx : Fitted K) (obs : Tensor K) (fh : List τ) : PyM (Frame Nat τ K) := do
  let n ← match obs.shape with
    | n :: _ => pure n
    | [] => throw .indexError
  let d ← obs.transpose.reshapeInfer n
  let idx ← periodindexToMultiindex ctx fh
  let preds ← frameOfMatrix ctx.yNlevels d.data (d.shape.headD 0) n idx
  invScaleY ctx.discrete ctx.scale (sortIndex preds)

/-- `_predict` (`sktime/base.py` 274-293): mean over the sample columns, one column named
after the target. -/
def predictPoint (name : String) (f : Frame Nat τ K) : Frame String τ K :=
  { nlevels := f.nlevels, cols := [name],
    rows := f.rows.map fun r =>
      ⟨r.sid, r.time, fun _ => (f.cols.map r.val).sum / (f.cols.length : K)⟩ }

/-- Linear-interpolation quantile of a list (pandas/numpy default), as used by
`DataFrame.quantile(alpha, axis=1)`: with `x` sorted and `h = alpha * (n - 1)`,
`x[floor h] + (h - floor h) * (x[floor h + 1] - x[floor h])`. (`sktime/base.py` 587.) -/
def quantile [FloorRing K] (xs : List K) (alpha : K) : K :=
  let s := xs.insertionSort (· ≤ ·)
  let h := alpha * ((s.length : K) - 1)
  let lo := (⌊h⌋).toNat
  let hi := min (lo + 1) (s.length - 1)
  s.getD lo 0 + (h - (lo : K)) * (s.getD hi 0 - s.getD lo 0)

/-- `_predict_quantiles` (`sktime/base.py` 555-590) for a list of alphas: one column per
`(variable name, alpha)`; alphas outside [0, 1] are a `ValueError` of pandas. -/
def predictQuantiles [FloorRing K] (name : String) (alphas : List K) (f : Frame Nat τ K) :
    PyM (Frame (String × K) τ K) :=
  if ∀ a ∈ alphas, 0 ≤ a ∧ a ≤ 1 then
    .ok { nlevels := f.nlevels, cols := alphas.map fun a => (name, a),
          rows := f.rows.map fun r =>
            ⟨r.sid, r.time, fun c => quantile (f.cols.map r.val) c.2⟩ }
  else .error .valueError

/-- `isinstance(alpha, float)` branch of `_predict_quantiles` (`sktime/base.py` 578-579). -/
inductive AlphaArg (K : Type) where
  | scalar (a : K)
  | list (l : List K)

/-- (`sktime/base.py` 578-579.) -/
def AlphaArg.toList {K : Type} : AlphaArg K → List K
  | .scalar a => [a]
  | .list l => l

/-- `predict_all_sites` (`sktime/base.py` 295-330).  `sites`: posterior predictive draws by
site name.  All sites must have as many entries as the index (pandas raises `ValueError`
otherwise).  Column order: dictionary order. -/
def predictAllSites (ctx : Fitted K) (sites : PyDict (Tensor K)) (fh : List τ) :
    PyM (Frame String τ K) := do
  let idx ← periodindexToMultiindex ctx fh
  let data := sites.map fun p => (p.1, p.2.meanAxis0.flatten)
  if ∀ p ∈ data, p.2.length = idx.length then
    let f : Frame String τ K :=
      { nlevels := ctx.yNlevels, cols := data.map Prod.fst,
        rows := List.zipWith (fun i (k : List String × τ) =>
          (⟨k.1, k.2, fun c => ((PyDict.get? data c).getD []).getD i 0⟩ : Row String τ K))
          (List.range idx.length) idx }
    invScaleY ctx.discrete ctx.scale (sortIndex f)
  else throw .valueError

/-- `predict_all_sites_samples` (`sktime/base.py` 360-413) for one site: labels are
(sample, series, time) with the sample varying slowest; values are the flattened draws; no
inverse scaling, no sorting.  The concatenation of the per-site frames (`pd.concat(axis=1)`)
has the same labels. -/
def siteSamples (ctx : Fitted K) (site : Tensor K) (fh : List τ) :
    PyM (List ((Nat × List String × τ) × K)) := do
  let n ← match site.shape with
    | n :: _ => pure n
    | [] => throw .indexError
  let idx ← periodindexToMultiindex ctx fh
  let labels := product (List.range n) idx
  if site.flatten.length = labels.length then pure (labels.zip site.flatten)
  else throw .valueError

/-- `_vectorize_predict_method` (`sktime/base.py` 724-764): the outputs of the per-series
forecasters (each indexed by time only) are concatenated. -/
def vectorizeConcat {ι V : Type} (outs : List (Frame ι τ V)) : Frame ι τ V :=
  match outs with
  | [] => { nlevels := 1, cols := [], rows := [] }
  | o :: _ => { nlevels := o.nlevels, cols := o.cols, rows := outs.flatMap Frame.rows }

end
end PV
