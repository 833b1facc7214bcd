import Mathlib.Data.String.Basic
import Mathlib.Data.List.Sort
import Verif.Model.EffectBase

/-!
# Assigning columns to effects (`sktime/base.py` 891-1010, 1088-1115)
-/

namespace PV

/-- The class of an effect: what it overrides, plus `effect(data, predicted_effects)`.  One
type `S` holds the subclass attributes of every effect class.
(`effects/base.py` 75-83, 156-174, 223-251, 306-310.) -/
structure EffectClass (S Y Sc τ V D K : Type) extends Hooks S Y Sc τ V D where
  call : BaseState × S → EffectCall (Transformed D) K

/-- An effect object.  `made` is the state in which the constructor leaves it. (`effects/base.py` 17-87.) -/
structure EffectObj (S Y Sc τ V D K : Type) where
  cls : EffectClass S Y Sc τ V D K
  made : BaseState × S
  st : BaseState × S

/-- One entry of `exogenous_effects`: name, effect, regex (`None` allowed). (`sktime/base.py` 904-908.) -/
structure EffectSpec (S Y Sc τ V D K : Type) where
  name : String
  effect : EffectObj S Y Sc τ V D K
  regex : Option String

/-- One entry of `exogenous_effects_`. (`sktime/base.py` 902, 934.) -/
structure FittedEffect (S Y Sc τ V D K : Type) where
  name : String
  effect : EffectObj S Y Sc τ V D K
  cols : List String

/-- Warnings emitted by `_fit_effects`, with the name of the effect. (`sktime/base.py` 922-931.) -/
inductive EffectWarning where
  | alreadySet (effect : String)
  | noMatch (effect : String)
  deriving DecidableEq, Repr

/-- `_match_columns` (`sktime/base.py` 1088-1115).  `compile` is `re.compile` followed by
`Pattern.match`; `columns[mask]` keeps the order. -/
def matchColumns (compile : String → PyM (String → Bool)) (cols : List String)
    (regex : Option String) : PyM (List String) :=
  match regex with
  | none => .ok []
  | some r => do
    let p ← compile r
    pure (cols.filter p)

section
variable {S Y Sc τ V D K : Type}

/-- `effect.clone()` of scikit-base: a new object built from the constructor parameters.
Called at `sktime/base.py` 916, 953. -/
def EffectObj.clone (e : EffectObj S Y Sc τ V D K) : EffectObj S Y Sc τ V D K :=
  { e with st := e.made }

/-- `effect.fit(...)`. (`effects/base.py` 109-154; called at `sktime/base.py` 918, 954.) -/
def EffectObj.fit (e : EffectObj S Y Sc τ V D K) (y : Y) (X : Option (Frame String τ V))
    (scale : Sc) : PyM (EffectObj S Y Sc τ V D K) := do
  let st ← baseFit e.cls.toHooks e.st y X scale
  pure { e with st := st }

/-- `effect.should_skip_predict`. (`effects/base.py` 95-107; read at `sktime/base.py` 988, 1009.) -/
def EffectObj.skip (e : EffectObj S Y Sc τ V D K) : PyM Bool := shouldSkip e.cls.tags e.st.1

/-- `effect.transform(...)`. (`effects/base.py` 176-221; called at `sktime/base.py` 991.) -/
def EffectObj.transform [DecidableEq τ] (e : EffectObj S Y Sc τ V D K)
    (X : Option (Frame String τ V)) (fh : List τ) : PyM (Transformed D) :=
  baseTransform e.cls.toHooks e.st X fh

/-- Loop state of `_fit_effects`: fitted effects, columns already assigned, warnings.
(`sktime/base.py` 902-903, 922-934.) -/
structure FitState (S Y Sc τ V D K : Type) where
  fitted : List (FittedEffect S Y Sc τ V D K)
  taken : List String
  warnings : List EffectWarning

/-- Loop body of `_fit_effects` (`sktime/base.py` 908-937).  Without `X` the variable
`columns` is unbound after the effect has been fitted. -/
def fitStep (compile : String → PyM (String → Bool)) (X : Option (Frame String τ V)) (y : Y)
    (scale : Sc) (acc : FitState S Y Sc τ V D K) (e : EffectSpec S Y Sc τ V D K) :
    PyM (FitState S Y Sc τ V D K) :=
  match X with
  | none => do
    let _ ← e.effect.clone.fit y none scale
    throw .unboundLocalError
  | some x => do
    let columns ← matchColumns compile x.cols e.regex
    let xc ← x.select columns
    let eff ← e.effect.clone.fit y (some xc) scale
    let w1 := if columns.any (acc.taken.contains ·) then [EffectWarning.alreadySet e.name] else []
    let w2 := if columns.isEmpty then [EffectWarning.noMatch e.name] else []
    pure { fitted := acc.fitted ++ [⟨e.name, eff, columns⟩],
           taken := acc.taken ++ columns, warnings := acc.warnings ++ w1 ++ w2 }

/-- `X.columns.difference(taken).tolist()`: the remaining column names, sorted. (`sktime/base.py` 938-940.) -/
def remainingColumns (cols taken : List String) : List String :=
  (cols.filter fun c => !taken.contains c).insertionSort (· ≤ ·)

/-- The name under which the default effect is registered (`sktime/base.py` 961). -/
def defaultEffectName : String := "exogenous_variables_effect"

/-- `_fit_effects` (`sktime/base.py` 891-967).  `default` is the user's default effect or the
`LinearEffect(Normal(0, 1), "additive")` built in its place. -/
def fitEffects (compile : String → PyM (String → Bool))
    (effects : List (EffectSpec S Y Sc τ V D K)) (default : EffectObj S Y Sc τ V D K)
    (X : Option (Frame String τ V)) (y : Y) (scale : Sc) :
    PyM (List (FittedEffect S Y Sc τ V D K) × List EffectWarning) := do
  let acc ← effects.foldlM (fitStep compile X y scale) ⟨[], [], []⟩
  match X with
  | none => pure (acc.fitted, acc.warnings)
  | some x =>
    let rest := remainingColumns x.cols acc.taken
    if rest.isEmpty then pure (acc.fitted, acc.warnings)
    else
      let xc ← x.select rest
      let eff ← default.clone.fit y (some xc) scale
      pure (acc.fitted ++ [⟨defaultEffectName, eff, rest⟩], acc.warnings)

/-- Loop body of `_transform_effects` (`sktime/base.py` 986-992). -/
def transformStep [DecidableEq τ] (X : Frame String τ V) (fh : List τ)
    (out : PyDict (Transformed D)) (e : FittedEffect S Y Sc τ V D K) :
    PyM (PyDict (Transformed D)) := do
  if ← e.effect.skip then pure out
  else
    let xc ← X.select e.cols
    let d ← e.effect.transform (some xc) fh
    pure (out.set e.name d)

/-- `_transform_effects` (`sktime/base.py` 969-994). -/
def transformEffects [DecidableEq τ] (fitted : List (FittedEffect S Y Sc τ V D K))
    (X : Frame String τ V) (fh : List τ) : PyM (PyDict (Transformed D)) :=
  fitted.foldlM (transformStep X fh) []

/-- The `if` of the comprehension in `non_skipped_exogenous_effect`. (`sktime/base.py` 1006-1010.) -/
def keepNonSkipped : List (FittedEffect S Y Sc τ V D K) → PyM (List (FittedEffect S Y Sc τ V D K))
  | [] => .ok []
  | e :: l => do
    let b ← e.effect.skip
    let r ← keepNonSkipped l
    pure (if b then r else e :: r)

/-- `non_skipped_exogenous_effect` (`sktime/base.py` 996-1010). -/
def nonSkipped (fitted : List (FittedEffect S Y Sc τ V D K)) :
    PyM (PyDict (EffectObj S Y Sc τ V D K)) := do
  let kept ← keepNonSkipped fitted
  pure (PyDict.ofList (kept.map fun e => (e.name, e.effect)))

/-- The effects as `_compute_mean_univariate` calls them. (`models.py` 259-262.) -/
def callsOf (d : PyDict (EffectObj S Y Sc τ V D K)) : PyDict (EffectCall (Transformed D) K) :=
  d.map fun p => (p.1, p.2.cls.call p.2.st)

end
end PV
