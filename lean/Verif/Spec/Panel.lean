import Mathlib.Data.Finset.Card
import Mathlib.Data.Finset.Dedup
import Verif.Model.Frame

/-! # Specification vocabulary for panels

Positions are counted in the raw rows of a frame, without the grouping helpers of the
model. -/

namespace PV
variable {ι τ V : Type}

/-- `s` is the `i`-th series of the panel, counted in order of first appearance. -/
def SeriesAt (f : Frame ι τ V) (i : Nat) (s : List String) : Prop :=
  ∃ k row, f.rows[k]? = some row ∧ row.sid = s ∧
    (∀ r ∈ f.rows.take k, r.sid ≠ s) ∧
    ((f.rows.take k).map Row.sid).toFinset.card = i

/-- `row` is the `j`-th row of series `s`. -/
def RowAt (f : Frame ι τ V) (s : List String) (j : Nat) (row : Row ι τ V) : Prop :=
  ∃ k, f.rows[k]? = some row ∧ row.sid = s ∧
    ((f.rows.take k).map Row.sid).count s = j

/-- Number of rows of series `s`. -/
def seriesLength (f : Frame ι τ V) (s : List String) : Nat := (f.rows.map Row.sid).count s

/-- Number of series. -/
def seriesCount (f : Frame ι τ V) : Nat := (f.rows.map Row.sid).toFinset.card

/-- All rows of a series are adjacent. -/
def Grouped (f : Frame ι τ V) : Prop :=
  ∀ (i j k : Nat) (a b c : Row ι τ V), i < j → j < k → f.rows[i]? = some a → f.rows[j]? = some b →
    f.rows[k]? = some c → a.sid = c.sid → b.sid = a.sid

/-- The rows of each series are in strictly increasing order of time. -/
def TimeSorted [LT τ] (f : Frame ι τ V) : Prop :=
  f.rows.Pairwise fun a b => a.sid = b.sid → a.time < b.time

end PV
