import Verif.Model.Aggregate

/-!
# Multi-index helpers (`utils/multiindex.py`)
-/

namespace PV

/-- An element of an index without its last level: a plain label when one level is left, a tuple
otherwise. (`utils/multiindex.py` 32-33, 74-77.) -/
inductive IdxVal where
  | scalar (s : String)
  | tuple (l : List String)
  deriving DecidableEq, Repr

/-- The first `n` labels of a row as element of an index. (`utils/multiindex.py` 32-33, 79-81.) -/
def idxVal (n : Nat) (sid : List String) : IdxVal :=
  if n = 1 then .scalar (sid.headD "") else .tuple (sid.take n)

section
variable {ι τ V : Type}

/-- The test in `get_bottom_series_idx`: `x != "__total"` or `x[-1] != "__total"`.
(`utils/multiindex.py` 32-33.) -/
def IdxVal.isBottom : IdxVal → Bool
  | .scalar s => s ≠ totalLabel
  | .tuple l => l.getLast? ≠ some totalLabel

/-- `get_bottom_series_idx` (`utils/multiindex.py` 15-34). -/
def getBottomSeriesIdx (f : Frame ι τ V) : PyM (List IdxVal) :=
  if f.nlevels = 1 then .error .valueError
  else .ok ((f.series.map (idxVal (f.nlevels - 1))).filter IdxVal.isBottom)

/-- `nlevels_to_loc` (`utils/multiindex.py` 74-77). -/
def IdxVal.nlevels : IdxVal → Nat
  | .scalar _ => 1
  | .tuple l => l.length

/-- `get_multiindex_loc` (`utils/multiindex.py` 56-82).  `idx_values[0]` of an empty index is an
`IndexError`.  Index values that include the time level are not modelled. -/
def getMultiindexLoc (f : Frame ι τ V) (idx : List IdxVal) : PyM (Frame ι τ V) :=
  match idx with
  | [] => .error .indexError
  | v :: _ => .ok { f with rows := f.rows.filter fun r => idxVal v.nlevels r.sid ∈ idx }

/-- `loc_bottom_series` (`utils/multiindex.py` 37-53). -/
def locBottom (f : Frame ι τ V) : PyM (Frame ι τ V) :=
  if f.nlevels = 1 then .ok f
  else do
    let idx ← getBottomSeriesIdx f
    getMultiindexLoc f idx

/-! ## `reindex_time_series` -/

/-- Cartesian product of label lists, the last varying fastest. (`utils/multiindex.py` 109-111.) -/
def productAll {α : Type} : List (List α) → List (List α)
  | [] => [[]]
  | l :: ls => l.flatMap fun a => (productAll ls).map fun s => a :: s

/-- `df.reindex(idx)`: for every label its row, NaN (`none`) if there is none.  A frame with
repeated labels cannot be reindexed (`ValueError`).  (pandas skips this check when the new index
equals the old one.) (`utils/multiindex.py` 102, 114.) -/
def Frame.reindex [DecidableEq τ] (f : Frame ι τ V) (idx : List (List String × τ)) :
    PyM (Frame ι τ (Option V)) :=
  if f.index.Nodup then
    .ok { nlevels := f.nlevels, cols := f.cols,
          rows := idx.map fun k => ⟨k.1, k.2, fun c =>
            (f.rows.find? fun r => r.sid = k.1 ∧ r.time = k.2).map fun r => r.val c⟩ }
  else .error .valueError

/-- `reindex_time_series` (`utils/multiindex.py` 85-114).  `levels` is `df.index.levels[:-1]`:
pandas keeps, per level, the distinct labels; labels that no row uses any more (after rows were
removed) stay. -/
def reindexTimeSeries [DecidableEq τ] (levels : List (List String)) (f : Frame ι τ V)
    (fh : List τ) : PyM (Frame ι τ (Option V)) :=
  if f.nlevels = 1 then f.reindex (fh.map fun t => ([], t))
  else f.reindex (product (productAll levels) fh)

end
end PV
