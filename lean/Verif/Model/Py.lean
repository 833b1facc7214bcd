/-!
# Python-side conventions

Exceptions are modelled as values of `PyErr`; a Python function that may raise
returns `Except PyErr α`.  Only the *class* of the exception is kept (messages are
dropped).
-/

namespace PV

/-- Exception classes that the modelled code can raise.
Raised e.g. at `sktime/base.py` 267, `engine.py` 174, `sktime/multivariate.py` 332, or by the libraries
called. -/
inductive PyErr where
  | valueError
  | keyError
  | indexError
  | attributeError
  | typeError
  | assertionError
  | unboundLocalError
  | reError
  | mapInferenceEngineError
  /-- Not an exception of the code: it goes on with NaN or infinite numbers, which the model does
  not follow. -/
  | nonFinite
  deriving DecidableEq, Repr

/-- The result of a call that may raise (see `PyErr`; e.g. `sktime/base.py` 267). -/
abbrev PyM := Except PyErr

instance {α} [DecidableEq α] : DecidableEq (Except PyErr α) := fun a b =>
  match a, b with
  | .ok x, .ok y => if h : x = y then isTrue (by rw [h]) else isFalse (by simp [h])
  | .error x, .error y => if h : x = y then isTrue (by rw [h]) else isFalse (by simp [h])
  | .ok _, .error _ => isFalse (by simp)
  | .error _, .ok _ => isFalse (by simp)

/-- Insertion-ordered dictionary (`dict` / `OrderedDict`) as an association list.
(`sktime/base.py` 985, `models.py` 248.) -/
abbrev PyDict (α : Type) := List (String × α)

namespace PyDict
variable {α : Type}

/-- `d[k] = v`: overwriting keeps the position of the key, a new key goes last.
(`sktime/base.py` 992, `models.py` 265.) -/
def set : PyDict α → String → α → PyDict α
  | [], k, v => [(k, v)]
  | (k', v') :: d, k, v => if k' = k then (k', v) :: d else (k', v') :: set d k v

/-- `d[k]` (`none` models `KeyError`). (`models.py` 260.) -/
def get? : PyDict α → String → Option α
  | [], _ => none
  | (k', v') :: d, k => if k' = k then some v' else get? d k

/-- `{k: v for k, v in l}` / repeated assignment in a loop. (`sktime/base.py` 1006-1010, 985-992.) -/
def ofList (l : List (String × α)) : PyDict α := l.foldl (fun d p => set d p.1 p.2) []

/-- `list(d.keys())`. (`sktime/base.py` 679, 722.) -/
def keys (d : PyDict α) : List String := d.map Prod.fst

/-- `d[k]`, raising `KeyError`. (`models.py` 260, `sktime/base.py` 438.) -/
def getItem (d : PyDict α) (k : String) : PyM α :=
  match get? d k with
  | some v => .ok v
  | none => .error .keyError

end PyDict
end PV
