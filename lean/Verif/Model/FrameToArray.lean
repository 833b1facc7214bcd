import Verif.Model.Frame

/-!
# Frames to arrays (`utils/frame_to_array.py` 46-96, `utils/multiindex.py` 117-133)
-/

namespace PV
namespace Frame
variable {ι τ V : Type}

/-- `df.values.flatten()` of some rows: row after row, columns in frame order.
(`utils/frame_to_array.py` 65, 76.) -/
def flatVals (f : Frame ι τ V) (rows : List (Row ι τ V)) : List V :=
  rows.flatMap fun r => f.cols.map r.val

/-- `series_to_tensor` (`utils/frame_to_array.py` 46-77).  The series are those of
`iterate_all_series`: `_get_s_matrix(y).index` of sktime lists `droplevel(-1).unique()`,
i.e. the series in order of first appearance, and `y.loc[idx]` is the rows of that series.
`reshape((-1, 0))` (no columns) is a `ValueError` of numpy. -/
def seriesToTensor (f : Frame ι τ V) : PyM (Tensor V) :=
  if f.cols = [] then .error .valueError
  else if f.nlevels = 1 then
    .ok ⟨[1, f.rows.length, f.cols.length], f.flatVals f.rows⟩
  else
    match f.series with
    | [] => .ok ⟨[0], []⟩
    | s :: ss =>
      if ∀ s' ∈ ss, (f.rowsOf s').length = (f.rowsOf s).length then
        .ok ⟨[(s :: ss).length, (f.rowsOf s).length, f.cols.length],
          (s :: ss).flatMap fun s' => f.flatVals (f.rowsOf s')⟩
      else .error .valueError

/-- `series_to_tensor_or_array` (`utils/frame_to_array.py` 80-96). -/
def seriesToTensorOrArray (f : Frame ι τ V) : PyM (Tensor V) :=
  if f.nlevels = 1 then .ok ⟨[f.rows.length, f.cols.length], f.flatVals f.rows⟩
  else f.seriesToTensor

end Frame
end PV
