import Verif.Model.PredictFrames

/-!
# sktime's hierarchical `Aggregator`

Used by `HierarchicalProphet` in `_get_fit_data` and `predict_samples`
(`sktime/multivariate.py` 235-238, 349-366).  This models the documented contract of the
third-party transformer: a frame with a one-level index is returned unchanged; otherwise
rows with a label `__total` on any level are removed (`X.drop(index="__total", level=i)` for all
series levels `i`), for `i = 0 .. L-1` (`L` series levels) rows are
grouped by the first `i` labels and the time and summed, the group gets the label
`prefix + ("__total",) * (L - i)`, everything is concatenated and sorted by index.
`flatten_single_levels=True` removes aggregates with a single child: modelled by an
arbitrary predicate `keep` on aggregate labels.
-/

namespace PV
variable {K τ : Type} [Field K] [LinearOrder K] [LinearOrder τ]

/-- The aggregate rows of one grouping depth. sktime, called at `sktime/multivariate.py` 238, 326, 366. -/
def aggLevel {ι : Type} (L i : Nat) (rows : List (Row ι τ K)) : List (Row ι τ K) :=
  (unique (rows.map fun r => (r.sid.take i, r.time))).map fun g =>
    ⟨g.1 ++ List.replicate (L - i) totalLabel, g.2, fun c =>
      ((rows.filter fun r => (r.sid.take i, r.time) = g).map fun r => r.val c).sum⟩

/-- `Aggregator().transform(X)`. Called at `sktime/multivariate.py` 238 (`fit_transform`), 326 and 366. -/
def aggregate {ι : Type} (keep : List String → Bool) (f : Frame ι τ K) : Frame ι τ K :=
  if f.nlevels = 1 then f
  else
    let bottom := f.rows.filter fun r => totalLabel ∉ r.sid
    let L := f.nlevels - 1
    let agg := (List.range L).flatMap fun i => aggLevel L i bottom
    sortIndex { f with rows := bottom ++ agg.filter fun r => keep r.sid }

/-- `HierarchicalProphet.predict_samples` (`sktime/multivariate.py` 349-366). -/
def predictSamplesHier (keep : List String → Bool) (ctx : Fitted K) (obs : Tensor K)
    (fh : List τ) : PyM (Frame Nat τ K) := do
  let f ← predictSamples ctx obs fh
  pure (aggregate keep f)

end PV
