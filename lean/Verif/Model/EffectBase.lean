import Verif.Model.FrameToArray
import Verif.Model.Mean

/-!
# The effect base classes (`effects/base.py`)
-/

namespace PV

/-- Class tags (`effects/base.py` 75-83), after merging with those of the subclass. -/
structure Tags where
  supportsMultivariate : Bool
  skipIfNoMatch : Bool
  filterFh : Bool
  deriving DecidableEq, Repr

/-- Default tags (`effects/base.py` 75-83); `LogEffect` and `HillEffect` keep them. -/
def baseTags : Tags := ⟨false, true, true⟩
/-- `LinearEffect` (`effects/linear.py` 30-32). -/
def linearTags : Tags := ⟨true, true, true⟩
/-- `LinearFourierSeasonality` (`effects/fourier.py` 36-43). -/
def fourierTags : Tags := ⟨true, false, true⟩
/-- `LiftExperimentLikelihood` (`effects/lift_experiment.py` 34). -/
def liftTags : Tags := ⟨false, false, true⟩
/-- All trends, through `TrendEffectMixin` (`effects/trend/base.py` 24). -/
def trendTags : Tags := ⟨true, false, true⟩

/-- The attributes managed by `BaseEffect`.  `none`: the attribute does not exist because
`BaseEffect.__init__` was never run (reading it is an `AttributeError`). (`effects/base.py` 85-87.) -/
structure BaseState where
  inputCols : Option (List String)
  isFitted : Option Bool
  deriving DecidableEq, Repr

/-- `BaseEffect.__init__` (`effects/base.py` 85-87). -/
def BaseState.init : BaseState := ⟨some [], some false⟩

/-- `should_skip_predict` (`effects/base.py` 95-107). -/
def shouldSkip (tags : Tags) (st : BaseState) : PyM Bool :=
  match st.inputCols with
  | none => .error .attributeError
  | some c => .ok (c.isEmpty && tags.skipIfNoMatch)

/-- `df.empty`: one of the axes has length 0. (`effects/base.py` 148.) -/
def Frame.isEmpty {ι τ V : Type} (f : Frame ι τ V) : Bool := f.cols.isEmpty || f.rows.isEmpty

/-- What a subclass overrides: `_fit` and `_transform`, on its own attributes `S`.  `Y`:
target frames, `Sc`: scales, `D`: data handed to `predict`. (`effects/base.py` 156-174, 223-251.) -/
structure Hooks (S Y Sc τ V D : Type) where
  tags : Tags
  fit : S → Y → Option (Frame String τ V) → Sc → PyM S
  transform : S → Frame String τ V → List τ → PyM D

/-- Result of `transform`: the empty dictionary for skipped effects, or the data.
(`effects/base.py` 212-221.) -/
inductive Transformed (D : Type) where
  | emptyDict
  | data (d : D)
  deriving DecidableEq, Repr

section
variable {S Y Sc τ V D : Type}

/-- `BaseEffect.fit` (`effects/base.py` 109-154). -/
def baseFit (h : Hooks S Y Sc τ V D) (st : BaseState × S) (y : Y)
    (X : Option (Frame String τ V)) (scale : Sc) : PyM (BaseState × S) :=
  if h.tags.supportsMultivariate = false ∧ (∃ x ∈ X, x.nlevels > 1) then .error .valueError
  else do
    let cols := match X with
      | none => []
      | some x => if x.isEmpty then [] else x.cols
    let s ← h.fit st.2 y X scale
    pure (⟨some cols, some true⟩, s)

/-- `BaseEffect.transform` (`effects/base.py` 176-221).  `X = None` cannot be subscripted
(`TypeError`). -/
def baseTransform [DecidableEq τ] (h : Hooks S Y Sc τ V D) (st : BaseState × S)
    (X : Option (Frame String τ V)) (fh : List τ) : PyM (Transformed D) :=
  match st.1.isFitted with
  | none => .error .attributeError
  | some false => .error .valueError
  | some true => do
    if ← shouldSkip h.tags st.1 then pure .emptyDict
    else
      match X, st.1.inputCols with
      | none, _ => throw .typeError
      | _, none => throw .attributeError
      | some x, some cols =>
        let x := if h.tags.filterFh then x.filterTimes fh else x
        let x ← x.select cols
        let d ← h.transform st.2 x fh
        pure (.data d)

/-- The default `_fit` (does nothing) and `_transform` (`effects/base.py` 156-174, 223-251) with
the given tags. -/
def defaultHooks (tags : Tags) : Hooks Unit Y Sc τ V (Tensor V) where
  tags := tags
  fit := fun s _ _ _ => .ok s
  transform := fun _ x _ => x.seriesToTensorOrArray

end

/-! ## Additive / multiplicative effects (`effects/base.py` 313-385) -/

/-- An instance of `BaseAdditiveOrMultiplicativeEffect`: its mode and its `_predict`.
(`effects/base.py` 313-345.) -/
structure AddMul (D K : Type) where
  mode : String
  raw : EffectCall D K

section
variable {D K : Type}

/-- Constructor (`effects/base.py` 335-346). -/
def AddMul.new (mode : String) (raw : EffectCall D K) : PyM (AddMul D K) :=
  if mode ∈ ["additive", "multiplicative"] then .ok ⟨mode, raw⟩ else .error .valueError

/-- `BaseEffect.predict` (`effects/base.py` 253-280): `None` becomes the empty dict. -/
def basePredict (raw : EffectCall D K) (θ : SiteEnv K) (d : D)
    (p : Option (PyDict (Tensor K))) : PyM (Tensor K) := raw θ d (p.getD [])

/-- A one-dimensional trend becomes a column (`effects/base.py` 376-377). -/
def trendAsColumn (trend : Tensor K) : PyM (Tensor K) :=
  if trend.ndim = 1 then trend.reshapeInfer 1 else .ok trend

/-- `BaseAdditiveOrMultiplicativeEffect.predict` (`effects/base.py` 348-385). -/
def AddMul.predict [Mul K] [Zero K] (e : AddMul D K) (θ : SiteEnv K) (d : D)
    (p : Option (PyDict (Tensor K))) : PyM (Tensor K) :=
  match p with
  | none => .error .valueError
  | some p => do
    let trend ← p.getItem "trend"
    let trend ← trendAsColumn trend
    let x ← basePredict e.raw θ d (some p)
    let x ← x.reshape trend.shape
    if e.mode = "additive" then pure x else Tensor.binop (· * ·) trend x

/-- `effect(data, predicted_effects)` (`effects/base.py` 306-310). -/
def AddMul.call [Mul K] [Zero K] (e : AddMul D K) : EffectCall D K :=
  fun θ d p => e.predict θ d (some p)

end
end PV
