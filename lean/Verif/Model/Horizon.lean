import Mathlib.Data.List.Sort
import Mathlib.Data.Int.Order.Basic
import Verif.Model.World

/-!
# Forecasting horizons (`sktime/base.py` 645-667; `sktime/multivariate.py` 315-321)

The argument `fh` is a list of whole numbers (steps) or a list of dates.  sktime's
`ForecastingHorizon` is modelled by its contract: it rejects empty and repeated values, sorts the
values, and turns the step `k` into the date `shift cutoff k`, the `k`-th date after (for a negative
`k`: before) the cutoff.
-/

namespace PV

/-- The values of a horizon. (`sktime/base.py` 661-666, `sktime/multivariate.py` 315-321.) -/
inductive Horizon (τ : Type) where
  | relative (steps : List ℤ)
  | absolute (dates : List τ)

section
variable {τ : Type} [LinearOrder τ]

/-- The values of `ForecastingHorizon(values)`: not empty, without repetition, sorted.
sktime, reached through `sktime/base.py` 353, 662. -/
def checkFhValues {α : Type} [LinearOrder α] (l : List α) : PyM (List α) :=
  if l = [] then .error .valueError
  else if l.Nodup then .ok (l.insertionSort (· ≤ ·))
  else .error .valueError

/-- `self._check_fh(fh)`, as called in `sktime/base.py` 352-353, 661-662 and by sktime's own
`predict`. -/
def checkFh : Horizon τ → PyM (Horizon τ)
  | .relative ks => (checkFhValues ks).map .relative
  | .absolute ts => (checkFhValues ts).map .absolute

/-- `fh_to_index` (`sktime/base.py` 645-667): `fh.to_absolute_index(cutoff)` with the greatest date
of the target, over all series, as cutoff.  The design of `HierarchicalProphet` uses
`fh.to_absolute` with the same cutoff, unless `update` has moved it (`sktime/multivariate.py`
315-318; see `Model/Update.lean`).  `times`: the dates of the
rows of the target, which has rows. -/
def fhToIndex (shift : τ → ℤ → τ) (times : List τ) : Horizon τ → List τ
  | .relative ks =>
    match times.max? with
    | some c => ks.map (shift c)
    | none => []
  | .absolute ts => ts

end

/-- A prediction method of the `i`-th forecaster with the horizon as the user gives it.  The check
comes first and changes nothing. (`sktime/base.py` 274-446, 645-667.) -/
def World.forecast {S τ D K F κ G Θ P : Type} [Field K] [LinearOrder K] [LinearOrder τ] [FloorRing K]
    (np : Numpyro κ G (ModelArgs D K) K Θ P (Draws K)) (shift : τ → ℤ → τ)
    (w : World S τ D K F κ G Θ P) (i : Nat) (q : Query K) (X : Option (Frame String τ K))
    (fh : Horizon τ) : PyM (Answer τ K) × World S τ D K F κ G Θ P :=
  match checkFh fh with
  | .error e => (.error e, w)
  | .ok fh => w.predict np (fhToIndex shift) i q X fh

end PV
