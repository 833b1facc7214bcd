import Verif.Model.FrameToArray
import Verif.Model.Trend

/-!
# Frames with their dates to arrays (`utils/frame_to_array.py` 99-141)
-/

namespace PV
namespace Frame
variable {ι τ V K : Type}

/-- `extract_timetensor_from_dataframe` (`utils/frame_to_array.py` 99-120): a frame with the only
column `t`, the dates as numbers (`days`: see `daysOfInt`, `daysOfNs`), converted by
`series_to_tensor`. -/
def timeTensor (days : τ → K) (f : Frame ι τ V) : PyM (Tensor K) :=
  Frame.seriesToTensor (ι := String)
    { nlevels := f.nlevels, cols := ["t"],
      rows := f.rows.map fun r => ⟨r.sid, r.time, fun _ => days r.time⟩ }

/-- `convert_dataframe_to_tensors` (`utils/frame_to_array.py` 123-141). -/
def toTensors (days : τ → K) (f : Frame ι τ V) : PyM (Tensor K × Tensor V) := do
  let t ← f.timeTensor days
  let d ← f.seriesToTensor
  pure (t, d)

end Frame
end PV
