import Mathlib.Data.List.Basic
import Verif.Model.Tensor

/-!
# pandas data frames

A frame is a list of rows; a row carries the labels of the series levels (`sid`, empty
for a frame with a one-level time index), the time label (the last index level) and a
value per column.  `nlevels` is `df.index.nlevels`.

Simplifications: column names are unique; series labels are strings (the code joins
them with `'-'.join`); a row stores its values as a function of the column name, of which
only the names in `cols` are ever read.
-/

namespace PV

/-- A row of a pandas frame, as in `sktime/base.py` 440-444. -/
structure Row (ι τ V : Type) where
  sid : List String
  time : τ
  val : ι → V

/-- A pandas frame, as the arguments `y` and `X` of `sktime/base.py` 221 and the result of `sktime/base.py` 440-446. -/
structure Frame (ι τ V : Type) where
  nlevels : Nat
  cols : List ι
  rows : List (Row ι τ V)

/-- `Index.unique()` / `dict.fromkeys`: distinct elements in order of first appearance.
Used at `sktime/base.py` 609, `sktime/multivariate.py` 237, `effects/trend/base.py` 41. -/
def unique {α : Type} [DecidableEq α] : List α → List α
  | [] => []
  | a :: l => a :: (unique l).filter (· ≠ a)

/-- `itertools.product(a, b)`: all pairs, the second component varying fastest.
Used at `sktime/base.py` 620 and `effects/trend/piecewise.py` 136. -/
def product {α β : Type} (a : List α) (b : List β) : List (α × β) :=
  a.flatMap fun x => b.map fun y => (x, y)

namespace Frame
variable {ι τ V : Type}

/-- Row labels (series id, time), i.e. `df.index`.
Used at `sktime/base.py` 242, `sktime/multivariate.py` 236. -/
def index (f : Frame ι τ V) : List (List String × τ) := f.rows.map fun r => (r.sid, r.time)

/-- `df.index.get_level_values(-1)`.
Used at `effects/base.py` 218, `sktime/multivariate.py` 237, `sktime/base.py` 666. -/
def times (f : Frame ι τ V) : List τ := f.rows.map Row.time

/-- `df.index.droplevel(-1).unique()` (as label tuples).
Used at `sktime/base.py` 609, `sktime/_expand_column_per_level.py` 76, `utils/multiindex.py` 32-33. -/
def series (f : Frame ι τ V) : List (List String) := unique (f.rows.map Row.sid)

/-- `df.values` as a list of rows. Used at `utils/frame_to_array.py` 65, 76, 95. -/
def values (f : Frame ι τ V) : List (List V) := f.rows.map fun r => f.cols.map r.val

/-- The rows of one series, `df.loc[sid]`. Used at `utils/multiindex.py` 133. -/
def rowsOf (f : Frame ι τ V) (s : List String) : List (Row ι τ V) :=
  f.rows.filter fun r => r.sid = s

/-- `df[cs]`: select columns by name; `KeyError` if one is missing.
Used at `sktime/base.py` 912, 943, 991, `effects/base.py` 220. -/
def select [DecidableEq ι] (f : Frame ι τ V) (cs : List ι) : PyM (Frame ι τ V) :=
  if ∀ c ∈ cs, c ∈ f.cols then .ok { f with cols := cs } else .error .keyError

/-- `df.loc[df.index.get_level_values(-1).isin(fh)]`: keeps the order of the frame.
Used at `effects/base.py` 218. -/
def filterTimes [DecidableEq τ] (f : Frame ι τ V) (fh : List τ) : Frame ι τ V :=
  { f with rows := f.rows.filter fun r => r.time ∈ fh }

/-- Apply a function to every value, which may depend on the row's series.
pandas arithmetic, as in `sktime/base.py` 515, 551. -/
def mapVals {W : Type} (g : List String → V → W) (f : Frame ι τ V) : Frame ι τ W :=
  { nlevels := f.nlevels, cols := f.cols,
    rows := f.rows.map fun r => ⟨r.sid, r.time, fun c => g r.sid (r.val c)⟩ }

/-- Every series id has as many labels as the index has series levels.
A pandas index always has this property; no code. -/
def WF (f : Frame ι τ V) : Prop := ∀ r ∈ f.rows, r.sid.length + 1 = f.nlevels

end Frame
end PV
