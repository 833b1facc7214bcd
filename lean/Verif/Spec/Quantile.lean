import Mathlib.Algebra.Order.Field.Basic
import Mathlib.Data.List.Sort

/-! # Specification: linear-interpolation quantile -/

namespace PV
variable {K : Type} [Field K] [LinearOrder K]

/-- `q` is the `alpha`-quantile of the sample `xs`: with the sample in increasing order
`s[0] ≤ ... ≤ s[n-1]` and `alpha * (n - 1) = k + w`, `0 ≤ w`, `q` is `s[k]` when `w = 0`
and otherwise the point at fraction `w < 1` between `s[k]` and `s[k+1]`. -/
def IsQuantile (xs : List K) (alpha q : K) : Prop :=
  ∃ s : List K, s.Perm xs ∧ s.Pairwise (· ≤ ·) ∧ ∃ (k : Nat) (w a : K),
    alpha * ((xs.length : K) - 1) = (k : K) + w ∧ s[k]? = some a ∧
    ((w = 0 ∧ q = a) ∨ (0 < w ∧ w < 1 ∧ ∃ b, s[k + 1]? = some b ∧ q = (1 - w) * a + w * b))

end PV
