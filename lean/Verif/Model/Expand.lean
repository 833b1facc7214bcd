import Mathlib.Data.List.Sort
import Verif.Model.Frame
import Verif.Model.Regex

/-!
# `ExpandColumnPerLevel` (`sktime/_expand_column_per_level.py`)

Simplification: feature values are numbers (no NaN), so the final `fillna(0)` changes nothing.
The matched columns are a Python `set`; its iteration order is a parameter (`order`).
-/

namespace PV

/-- `get_col_name` (`sktime/_expand_column_per_level.py` 83-100, 134-135). -/
def colName (column : String) (identifier : List String) : String :=
  column ++ "_dup_" ++ pyJoin "-" identifier

/-- Attributes after `fit`. (`sktime/_expand_column_per_level.py` 41-81.) -/
structure ExpandState where
  skip : Bool
  /-- `matched_columns_` in iteration order -/
  matched : List String
  deriving DecidableEq, Repr

section
variable {τ V : Type}

/-- `re.compile` of all patterns. (`sktime/_expand_column_per_level.py` 57.) -/
def compileAll (compile : String → PyM (String → Bool)) : List String → PyM (List (String → Bool))
  | [] => .ok []
  | p :: ps => do
    let m ← compile p
    let ms ← compileAll compile ps
    pure (m :: ms)

/-- `fit` (`sktime/_expand_column_per_level.py` 41-81).  `new_columns_` and
`series_identifiers_` are not read anywhere and are left out. -/
def expandFit (compile : String → PyM (String → Bool)) (order : List String → List String)
    (patterns : List String) (x : Frame String τ V) : PyM ExpandState := do
  let ms ← compileAll compile patterns
  let matched := order (x.cols.filter fun c => ms.any fun m => m c)
  pure ⟨x.nlevels == 1, matched⟩

/-- `X[name] = ...`, with a value per row: overwrites the column or appends a new one.
pandas; used at `sktime/_expand_column_per_level.py` 139. -/
def Frame.setCol (f : Frame String τ V) (name : String) (g : Row String τ V → V) :
    Frame String τ V :=
  { f with cols := if name ∈ f.cols then f.cols else f.cols ++ [name]
           rows := f.rows.map fun r =>
            { r with val := fun c => if c = name then g r else r.val c } }

/-- `X.loc[identifier, name] = values` where `name` is a column: rows of one series.
pandas; used at `sktime/_expand_column_per_level.py` 146-148. -/
def Frame.setLoc (f : Frame String τ V) (identifier : List String) (name : String)
    (vals : List V) : Frame String τ V :=
  { f with rows := go f.rows vals }
where
  /-- assign the values one after the other to the rows of the series -/
  go : List (Row String τ V) → List V → List (Row String τ V)
  | [], _ => []
  | r :: rows, vs =>
    if r.sid = identifier then
      match vs with
      | [] => r :: go rows []
      | v :: vs => { r with val := fun c => if c = name then v else r.val c } :: go rows vs
    else r :: go rows vs

/-- `transform` (`sktime/_expand_column_per_level.py` 102-153). -/
def expandTransform [Zero V] (st : ExpandState) (x : Frame String τ V) :
    PyM (Frame String τ V) :=
  if st.skip then .ok x
  else if x.nlevels = 1 then .error .valueError
  else
    let ids := x.series
    let x1 := (product st.matched ids).foldl (fun f p => f.setCol (colName p.1 p.2) fun _ => 0) x
    if x.rows ≠ [] ∧ ¬ ∀ c ∈ st.matched, c ∈ x.cols then .error .keyError
    else
      let x2 := (product ids st.matched).foldl (fun f p =>
        f.setLoc p.1 (colName p.2 p.1) ((x.rowsOf p.1).map fun r => r.val p.2)) x1
      if ∀ c ∈ st.matched, c ∈ x2.cols then
        .ok { x2 with cols := x2.cols.filter (· ∉ st.matched) }
      else .error .keyError

end
end PV

namespace PV
variable {τ V : Type}

/-- The patterns `HierarchicalProphet` gives to the expansion,
`X_bottom.columns.difference(shared_features).to_list()` (`sktime/multivariate.py` 263-270):
sorted, without repetition. -/
def nonShared (cols shared : List String) : List String :=
  (unique (cols.filter (· ∉ shared))).insertionSort (· ≤ ·)

/-- The expansion step of `HierarchicalProphet._get_fit_data` (`sktime/multivariate.py` 263-271):
fit on the bottom series and transform them.  `shared_features=None` is the empty list. -/
def hierExpand [Zero V] (compile : String → PyM (String → Bool))
    (order : List String → List String) (shared : List String) (x : Frame String τ V) :
    PyM (Frame String τ V) := do
  let st ← expandFit compile order (nonShared x.cols shared) x
  expandTransform st x

end PV
