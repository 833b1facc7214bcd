import Verif.Model.Frame
import Mathlib.Algebra.Order.Field.Basic
import Mathlib.Algebra.Order.Group.Abs

/-! # Specification of the target scale (independent of the model's helpers) -/

namespace PV
variable {K τ : Type} [Field K] [LinearOrder K]

/-- `m` is the largest absolute value of column `c` in the rows of series `s`. -/
def IsMaxAbsOf (y : Frame String τ K) (c : String) (s : List String) (m : K) : Prop :=
  (∀ r ∈ y.rows, r.sid = s → |r.val c| ≤ m) ∧ ∃ r ∈ y.rows, r.sid = s ∧ |r.val c| = m

/-- `σ` is the documented scale of series `s`: its maximum absolute value, or 1 if the
series is identically zero. -/
def IsSeriesScale (y : Frame String τ K) (c : String) (s : List String) (σ : K) : Prop :=
  ∃ m, IsMaxAbsOf y c s m ∧ σ = if m = 0 then 1 else m

end PV
