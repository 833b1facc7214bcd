import Verif.Spec.PanelPointwise

/-!
# Panels that can be fitted

The series of a panel are labelled by the index levels before the last; rows with the label
`__total` are aggregates of other series.
-/

namespace PV
section
variable {τ V : Type}

/-- A target every user would call regular: one column, series over the same dates, in order of
time, at least two dates, and a series that is not an aggregate. -/
structure RegularPanel [LT τ] (y : Frame String τ V) : Prop where
  wf : y.WF
  levels : 2 ≤ y.nlevels
  column : ∃ c, y.cols = [c]
  ordered : TimeSorted y
  regular : ∀ r ∈ y.rows, ∀ r' ∈ y.rows, ∃ q ∈ y.rows, q.sid = r.sid ∧ q.time = r'.time
  bottom : ∃ r ∈ y.rows, "__total" ∉ r.sid
  twoDates : ∃ r ∈ y.rows, ∃ r' ∈ y.rows, r.time < r'.time

/-- The rows of the series that are not aggregates. -/
def Frame.bottomOnly (x : Frame String τ V) : Frame String τ V :=
  { x with rows := x.rows.filter fun r => r.sid.getLast? ≠ some "__total" }

/-- The labels of the series of the target that are not aggregates, in lexicographic order. -/
structure SeriesOf (y : Frame String τ V) (ss : List (List String)) : Prop where
  sorted : ss.Pairwise (· < ·)
  mem : ∀ s, s ∈ ss ↔ "__total" ∉ s ∧ ∃ r ∈ y.rows, r.sid = s

/-- A table `X` with columns that has, after aggregates are dropped, the series `ss` in this order
and a row for each of them at each of the dates. -/
structure RegularExog [LT τ] (X : Frame String τ V) (ss : List (List String)) (ts : List τ) :
    Prop where
  wf : X.WF
  levels : 2 ≤ X.nlevels
  columns : X.cols ≠ []
  panel : PanelIn X.bottomOnly ss ts

end
end PV
