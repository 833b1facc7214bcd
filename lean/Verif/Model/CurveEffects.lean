import Verif.Model.Effects
import Verif.Model.TrendEffects

/-!
# Log and Hill effects as classes (`effects/log.py`, `effects/hill.py`)
-/

namespace PV
variable {τ : Type} [DecidableEq τ]

/-- `LogEffect` (`effects/log.py` 18-67): no attributes of its own, default tags and `_transform`. -/
noncomputable def logClass {S : Type} (mode : String) :
    EffectClass S (Frame String τ ℝ) (Scale ℝ) τ ℝ (Tensor ℝ) ℝ where
  tags := baseTags
  fit := fun s _ _ _ => .ok s
  transform := fun _ x _ => x.seriesToTensorOrArray
  call := fun _ => AddMul.call ⟨mode, logRaw⟩

/-- `HillEffect` (`effects/hill.py` 19-73): no attributes of its own, default tags and
`_transform`. -/
noncomputable def hillClass {S : Type} (mode : String) :
    EffectClass S (Frame String τ ℝ) (Scale ℝ) τ ℝ (Tensor ℝ) ℝ where
  tags := baseTags
  fit := fun s _ _ _ => .ok s
  transform := fun _ x _ => x.seriesToTensorOrArray
  call := fun _ => AddMul.call ⟨mode, hillRaw⟩

end PV
