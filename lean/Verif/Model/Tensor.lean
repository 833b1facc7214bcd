import Mathlib.Algebra.BigOperators.Group.List.Basic
import Mathlib.Algebra.Field.Basic
import Verif.Model.Py

/-!
# numpy / jax arrays

An array is a shape together with its row-major ("C order") buffer, exactly what
`reshape`, `flatten` and `.T` are defined on in numpy/jax.numpy.  Element type: any `K`.
-/

namespace PV

/-- n-dimensional array: `shape` and row-major buffer `data`.
The arrays of `utils/frame_to_array.py` 46-96, `sktime/base.py` 438-441, `models.py` 250-264. -/
structure Tensor (K : Type) where
  shape : List Nat
  data : List K
  deriving DecidableEq, Repr

namespace Tensor
variable {K : Type}

/-- Number of elements of an array of the given shape. Used by `reshape` at `sktime/base.py` 441. -/
def size : List Nat → Nat
  | [] => 1
  | n :: s => n * size s

/-- The buffer has as many elements as the shape says. Every numpy or jax array has this property; no code. -/
def WF (t : Tensor K) : Prop := t.data.length = size t.shape

/-- All multi-indices of a shape in row-major order. Used to state `.T` at `sktime/base.py` 441. -/
def indices : List Nat → List (List Nat)
  | [] => [[]]
  | n :: s => (List.range n).flatMap fun i => (indices s).map (i :: ·)

/-- Offset of a multi-index in the row-major buffer. Used to state `.T` at `sktime/base.py` 441. -/
def ravel : List Nat → List Nat → Nat
  | _ :: s, i :: is => i * size s + ravel s is
  | _, _ => 0

/-- The multi-index is valid for the shape. No code: the valid indices of an array. -/
def InBounds : List Nat → List Nat → Prop
  | [], [] => True
  | n :: s, i :: is => i < n ∧ InBounds s is
  | _, _ => False

/-- Element access `t[i, j, ...]` (`none`: index error). Used to state `.T` at `sktime/base.py` 441. -/
def get? (t : Tensor K) (idx : List Nat) : Option K := t.data[ravel t.shape idx]?

/-- Array given by its entries. Used to state `.T` at `sktime/base.py` 441. -/
def ofFn (shape : List Nat) (f : List Nat → K) : Tensor K :=
  ⟨shape, (indices shape).map f⟩

/-- `t.reshape(shape)` for a fully specified shape: same buffer, `TypeError` (jax) if the
number of elements differs.
(`utils/frame_to_array.py` 65, 76, `sktime/univariate.py` 285, `effects/base.py` 380.) -/
def reshape (t : Tensor K) (shape : List Nat) : PyM (Tensor K) :=
  if t.data.length = size shape then .ok ⟨shape, t.data⟩ else .error .typeError

/-- `t.reshape((-1, n))`: the first dimension is inferred; `ValueError` if it is not an
integer (including `n = 0`). (`sktime/base.py` 441.) -/
def reshapeInfer (t : Tensor K) (n : Nat) : PyM (Tensor K) :=
  if n ≠ 0 ∧ t.data.length % n = 0 then .ok ⟨[t.data.length / n, n], t.data⟩
  else .error .valueError

/-- `t.flatten()`. (`sktime/base.py` 324, 406.) -/
def flatten (t : Tensor K) : List K := t.data

/-- `t.T`: reverses the axes. (`sktime/base.py` 441, `models.py` 49.) -/
def transpose [Zero K] (t : Tensor K) : Tensor K :=
  ofFn t.shape.reverse fun idx => (t.get? idx.reverse).getD 0

/-- The `i`-th block of `n` consecutive elements of a list. Used to state `sktime/base.py` 440-444. -/
def chunk (l : List K) (n i : Nat) : List K := (l.drop (i * n)).take n

/-- The rows of a 2-dimensional buffer with `n` columns and `m` rows. Used to state `sktime/base.py` 440-444. -/
def rowsOf (l : List K) (m n : Nat) : List (List K) := (List.range m).map (chunk l n)

/-- `t.mean(axis=0)`. (`sktime/base.py` 324.) -/
def meanAxis0 [Field K] (t : Tensor K) : Tensor K :=
  match t.shape with
  | [] => t
  | n :: s => ofFn s fun idx =>
      ((List.range n).map fun i => (t.get? (i :: idx)).getD 0).sum / (n : K)

/-- Elementwise map (`exp(t)`, `t * scalar`, ...). (`models.py` 198, 232-238, `effects/log.py` 65.) -/
def map {L : Type} (f : K → L) (t : Tensor K) : Tensor L := ⟨t.shape, t.data.map f⟩

/-- Elementwise binary operation on arrays of equal shape; other shapes are treated as
an error (numpy broadcasting between different shapes is not used on this path).
(`effects/trend/piecewise.py` 288.) -/
def zipWith {L M : Type} (f : K → L → M) (a : Tensor K) (b : Tensor L) : PyM (Tensor M) :=
  if a.shape = b.shape then .ok ⟨a.shape, List.zipWith f a.data b.data⟩
  else .error .typeError

/-- Number of dimensions.
(`effects/base.py` 376, `effects/linear.py` 70-73, `effects/trend/piecewise.py` 192-199.) -/
def ndim (t : Tensor K) : Nat := t.shape.length

end Tensor
end PV
