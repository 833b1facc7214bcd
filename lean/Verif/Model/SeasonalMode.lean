import Verif.Model.FourierFeatures
import Verif.Model.Params

/-!
# `LinearFourierSeasonality._fit` for any `effect_mode`

`Verif.Model.FourierFeatures` has the effect for valid modes.
-/

namespace PV

/-- `LinearFourierSeasonality._fit` (`effects/fourier.py` 60-94) with the constructor of the inner
linear effect (90-92), which runs after the expansion; `mode`: the attribute `effect_mode`,
`normal`: `dist.Normal(0, self.prior_scale)`.  The rest is `fourierHooks`. -/
def fourierFitAny {F Y Sc τ V K O : Type} [Zero V] [DecidableEq τ] [Field K] [DecidableEq K]
    (lib : FourierLib F τ V) (compile : String → PyM (String → Bool))
    (order : List String → List String) (normal : O) (mode : PVal K O)
    (s : FourierState F) (y : Y) (X : Option (Frame String τ V)) (scale : Sc) :
    PyM (FourierState F) :=
  match X with
  | none => .error .typeError
  | some x => do
    let φ ← lib.fit x
    let x ← lib.transform φ x
    let ex ← fourierExpand compile order s.expand x
    let _ ← (linearCtor normal).call [("prior", .obj normal), ("effect_mode", mode)]
    let lin ← baseFit (defaultHooks linearTags) (BaseState.init, ()) y (some ex.2) scale
    pure ⟨some φ, ex.1, some lin.1⟩

end PV
