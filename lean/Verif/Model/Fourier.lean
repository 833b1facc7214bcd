import Verif.Model.EffectBase
import Verif.Model.Expand

/-!
# `LinearFourierSeasonality` (`effects/fourier.py`)

sktime's `FourierFeatures` is not modelled: it is a parameter, with a fitted state `F`.
-/

namespace PV

/-- sktime's `FourierFeatures` with its parameters set: `fit` and `transform`.
Used at `effects/fourier.py` 76-84, 118. -/
structure FourierLib (F τ V : Type) where
  fit : Frame String τ V → PyM F
  transform : F → Frame String τ V → PyM (Frame String τ V)

/-- Attributes of the effect: `fourier_features_`, `expand_column_per_level_` and
`linear_effect_`.  `none` for the first and third: the attribute does not exist; for the second:
it is `None`. (`effects/fourier.py` 58, 76-94.) -/
structure FourierState (F : Type) where
  features : Option F
  expand : Option ExpandState
  linear : Option BaseState
  deriving DecidableEq

/-- The state after `__init__` (`effects/fourier.py` 45-58), which does not run
`BaseEffect.__init__`. -/
def fourierMade {F : Type} : BaseState × FourierState F := (⟨none, none⟩, ⟨none, none, none⟩)

section
variable {F Y Sc τ V : Type}

/-- The expansion in `_fit` (`effects/fourier.py` 86-88): new value of
`expand_column_per_level_` and new `X`. -/
def fourierExpand [Zero V] (compile : String → PyM (String → Bool))
    (order : List String → List String) (old : Option ExpandState) (x : Frame String τ V) :
    PyM (Option ExpandState × Frame String τ V) :=
  if x.nlevels > 1 ∧ x.series.length > 1 then do
    let st ← expandFit compile order [".*"] x
    let x ← expandTransform st x
    pure (some st, x)
  else pure (old, x)

/-- `_fit` and `_transform` (`effects/fourier.py` 60-125).  Only fits that raise nothing change
the state here.  `X = None` is rejected by sktime's transformer (`TypeError`). -/
def fourierHooks [Zero V] [DecidableEq τ] (lib : FourierLib F τ V)
    (compile : String → PyM (String → Bool)) (order : List String → List String) :
    Hooks (FourierState F) Y Sc τ V (Transformed (Tensor V)) where
  tags := fourierTags
  fit := fun s y X scale =>
    match X with
    | none => .error .typeError
    | some x => do
      let φ ← lib.fit x
      let x ← lib.transform φ x
      let ex ← fourierExpand compile order s.expand x
      let lin ← baseFit (defaultHooks linearTags) (BaseState.init, ()) y (some ex.2) scale
      pure ⟨some φ, ex.1, some lin.1⟩
  transform := fun s x fh =>
    match s.features, s.linear with
    | some φ, some lin => do
      let x ← lib.transform φ x
      let x ← match s.expand with
        | none => pure x
        | some st => expandTransform st x
      baseTransform (defaultHooks (Y := Unit) (Sc := Unit) linearTags) (lin, ()) (some x) fh
    | _, _ => .error .attributeError

end
end PV
