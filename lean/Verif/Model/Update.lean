import Verif.Model.Horizon

/-!
# New observations after `fit`: sktime's `update`

`update(y, X, update_params=...)` is sktime's: it combines the new rows with those seen so far
(`self._y`, `self._X`), and then fits again on everything (`update_params=True`; no class of the
package defines `_update`) or leaves the fit as it is.  The package reads `self._y` in `fh_to_index`
(`sktime/base.py` 664-666), `periodindex_to_multiindex` (`sktime/base.py` 606) and `_predict`
(`sktime/base.py` 291), and in `HierarchicalProphet._get_predict_data` when there is no `X`
(`sktime/multivariate.py` 324).  `HierarchicalProphet` resolves the horizon of the design against
`internal_y_indexes_` instead, which only `fit` sets (`sktime/multivariate.py` 243, 315-318).
-/

namespace PV

section
variable {S τ D K F κ G Θ P : Type} [Field K] [LinearOrder K] [LinearOrder τ]

/-- A prediction method of the `i`-th forecaster (see `World.predict`): `design` are the dates the
model is evaluated at (`_get_predict_data`: `sktime/univariate.py` 324, `sktime/multivariate.py`
315-318), `labels` the dates in the index of the answer (`sktime/base.py` 319, 384, 434, 645-667). -/
def World.predictAt [FloorRing K] (np : Numpyro κ G (ModelArgs D K) K Θ P (Draws K))
    (design labels : Fc S τ D K κ G Θ P → Prepared τ K → List τ) (w : World S τ D K F κ G Θ P)
    (i : Nat) (q : Query K) (X : Option (Frame String τ K)) :
    PyM (Answer τ K) × World S τ D K F κ G Θ P :=
  match w.fcs[i]? with
  | none => (.error .attributeError, w)
  | some fc =>
    if q.checked && !fc.isFitted then (.error .valueError, w) else
    match fc.prepared, fc.engine with
    | some p, some eng =>
      match predictArgs w.heap w.feats fc.cfg p X (design fc p) with
      | .error e => (.error e, w)
      | .ok a =>
        match eng.predict np a w.samples with
        | (r, eng, g) =>
          (r.bind fun d => q.answer fc.cfg.hier (p.ctx fc.cfg) (p.y.cols.headD "") d (labels fc p),
           { w with fcs := w.fcs.set i { fc with engine := some eng }, samples := g })
    | _, _ => (.error .attributeError, w)

/-- The objects, and of every forecaster the dates of `internal_y_indexes_` and the exogenous
variables seen so far (`self._X`).  The target seen so far, `self._y`, is `Prepared.y`.
(`sktime/base.py` 242, 606, 664-666; `sktime/multivariate.py` 243, 324.) -/
structure Session (S τ D K F κ G Θ P : Type) where
  world : World S τ D K F κ G Θ P
  trained : Nat → List τ
  exog : Nat → Option (Frame String τ K)

/-- `forecaster.fit(y, X)`.  (`_fit` sets `internal_y_indexes_`, `sktime/base.py` 242 and
`sktime/multivariate.py` 243; the aggregates have the dates of the series.) -/
def Session.fit (np : Numpyro κ G (ModelArgs D K) K Θ P (Draws K)) (s : Session S τ D K F κ G Θ P)
    (i : Nat) (y : Frame String τ K) (X : Option (Frame String τ K)) :
    PyM Unit × Session S τ D K F κ G Θ P :=
  ((s.world.fit np i y X).1,
    { world := (s.world.fit np i y X).2
      trained := fun j => if j = i then y.times else s.trained j
      exog := fun j => if j = i then X else s.exog j })

/-- The exogenous variables seen so far and new ones.
sktime; kept in `self._X`, which no code of the package reads. -/
def combineExog (combine : Frame String τ K → Frame String τ K → Frame String τ K) :
    Option (Frame String τ K) → Option (Frame String τ K) → Option (Frame String τ K)
  | some x, some x' => some (combine x x')
  | some x, none => some x
  | none, x' => x'

/-- `forecaster.update(y, X, update_params)`.  `combine`: rows seen so far and new rows
(sktime's `update_data`). sktime; see `sktime/base.py` 606, 664-666. -/
def Session.update (np : Numpyro κ G (ModelArgs D K) K Θ P (Draws K))
    (combine : Frame String τ K → Frame String τ K → Frame String τ K)
    (s : Session S τ D K F κ G Θ P) (i : Nat) (y : Frame String τ K)
    (X : Option (Frame String τ K)) (updateParams : Bool) :
    PyM Unit × Session S τ D K F κ G Θ P :=
  match s.world.fcs[i]? with
  | none => (.error .attributeError, s)
  | some fc =>
    if !fc.isFitted then (.error .valueError, s) else
    match fc.prepared with
    | none => (.error .attributeError, s)
    | some p =>
      let p' := { p with y := combine p.y y }
      let s' : Session S τ D K F κ G Θ P :=
        { world := { s.world with fcs := s.world.fcs.set i { fc with prepared := some p' } }
          trained := s.trained
          exog := fun j => if j = i then combineExog combine (s.exog i) X else s.exog j }
      if updateParams then s'.fit np i p'.y (s'.exog i) else (.ok (), s')

/-- The dates of the design: a univariate forecaster uses `fh_to_index` (`sktime/univariate.py`
324), `HierarchicalProphet` the dates of `internal_y_indexes_`. -/
def Session.designDates (shift : τ → ℤ → τ) (s : Session S τ D K F κ G Θ P) (i : Nat)
    (fh : Horizon τ) (fc : Fc S τ D K κ G Θ P) (p : Prepared τ K) : List τ :=
  match fc.cfg.hier with
  | none => fhToIndex shift p.y.times fh
  | some _ => fhToIndex shift (s.trained i) fh

/-- A prediction method of the `i`-th forecaster, with the horizon as the user gives it.
(`sktime/base.py` 274-446.) -/
def Session.forecast [FloorRing K] (np : Numpyro κ G (ModelArgs D K) K Θ P (Draws K))
    (shift : τ → ℤ → τ) (s : Session S τ D K F κ G Θ P) (i : Nat) (q : Query K)
    (X : Option (Frame String τ K)) (fh : Horizon τ) :
    PyM (Answer τ K) × Session S τ D K F κ G Θ P :=
  match checkFh fh with
  | .error e => (.error e, s)
  | .ok fh =>
    let r := s.world.predictAt np (s.designDates shift i fh)
      (fun _ p => fhToIndex shift p.y.times fh) i q X
    (r.1, { s with world := r.2 })

/-- A list of calls of `update(y, X, update_params=False)`. sktime; see `sktime/base.py` 664-666. -/
def Session.updates (np : Numpyro κ G (ModelArgs D K) K Θ P (Draws K))
    (combine : Frame String τ K → Frame String τ K → Frame String τ K)
    (s : Session S τ D K F κ G Θ P) (i : Nat)
    (news : List (Frame String τ K × Option (Frame String τ K))) : Session S τ D K F κ G Θ P :=
  news.foldl (fun s n => (s.update np combine i n.1 n.2 false).2) s

end
end PV
