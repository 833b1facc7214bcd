import Verif.Model.Tensor

/-!
# numpy broadcasting and products along the last axis
-/

namespace PV.Tensor
variable {K L M : Type}

/-- Broadcast shape of two shapes given innermost dimension first; `none`: incompatible.
numpy; used by the arithmetic in `models.py` 264, `effects/base.py` 385, `effects/trend/piecewise.py`
196. -/
def bcRev : List Nat → List Nat → Option (List Nat)
  | [], t => some t
  | s, [] => some s
  | m :: s, n :: t =>
    match (if m = n then some m else if m = 1 then some n else if n = 1 then some m else none),
      bcRev s t with
    | some d, some r => some (d :: r)
    | _, _ => none

/-- Broadcast shape: dimensions are aligned at the innermost axis; a dimension of size 1
stretches.
numpy; used by the arithmetic in `models.py` 264, `effects/base.py` 385, `effects/trend/piecewise.py`
196. -/
def bcShape (s t : List Nat) : Option (List Nat) := (bcRev s.reverse t.reverse).map List.reverse

/-- Index into an operand of shape `shape` for index `idx` of the broadcast result.
numpy; used by the arithmetic in `models.py` 264, `effects/base.py` 385, `effects/trend/piecewise.py`
196. -/
def bcIdx (shape idx : List Nat) : List Nat :=
  List.zipWith (fun n i => if n = 1 then 0 else i) shape (idx.drop (idx.length - shape.length))

/-- Elementwise binary operation with broadcasting (`a + b`, `a * b`, ...).  jax raises
`TypeError` for incompatible shapes.
Used at `models.py` 264, `effects/base.py` 385, `effects/trend/piecewise.py` 196, 559. -/
def binop [Zero K] [Zero L] (f : K → L → M) (a : Tensor K) (b : Tensor L) : PyM (Tensor M) :=
  match bcShape a.shape b.shape with
  | some sh => .ok (ofFn sh fun idx =>
      f ((a.get? (bcIdx a.shape idx)).getD 0) ((b.get? (bcIdx b.shape idx)).getD 0))
  | none => .error .typeError

/-- `sum_j x_j * v_j`.
One entry of the products at `utils/algebric_operations.py` 26 and `effects/trend/piecewise.py` 196. -/
def dot [Add K] [Mul K] [Zero K] (x v : List K) : K := (List.zipWith (· * ·) x v).sum

/-- `data @ v` where `v` is used as a column vector: every length-`n` run along the last
axis of `data` is multiplied with `v`.  Result: the leading axes of `data`.  `TypeError`
(jax: incompatible shapes for `dot_general`) if the sizes differ or `data` is a scalar.
`utils/algebric_operations.py` 26, `effects/trend/piecewise.py` 196. -/
def dotLast [Add K] [Mul K] [Zero K] (data : Tensor K) (v : List K) : PyM (Tensor K) :=
  match data.shape.getLast? with
  | none => .error .typeError
  | some n =>
    if n = v.length then
      .ok ⟨data.shape.dropLast,
        (List.range (size data.shape.dropLast)).map fun i => dot (chunk data.data n i) v⟩
    else .error .typeError

end PV.Tensor
