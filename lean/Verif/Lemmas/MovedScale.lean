import Verif.Lemmas.MovedFit
import Verif.Lemmas.UnitChange

/-! # Mirrored and shifted targets: scaling -/

set_option linter.unusedSectionVars false

namespace PV
variable {τ : Type} [LinearOrder τ] {ε a : ℝ}

theorem maxAbs?_mirror : ∀ xs : List ℝ, maxAbs? (xs.map (moved (-1) 0)) = maxAbs? xs := by
  have key : ∀ (xs : List ℝ) (m : ℝ), (xs.map (moved (-1) 0)).foldl (fun m v => max m |v|) m
      = xs.foldl (fun m v => max m |v|) m := by
    intro xs
    induction xs with
    | nil => intro m; rfl
    | cons x xs ih => intro m; simp only [List.map_cons, List.foldl_cons, ih]; simp [moved]
  intro xs
  cases xs with
  | nil => rfl
  | cons x xs => simp only [maxAbs?, List.map_cons, key]; simp [moved]

theorem targetVals_moved (y : Frame String τ ℝ) (rows : List (Row String τ ℝ)) :
    targetVals (y.moved ε a) (rows.map fun r => ⟨r.sid, r.time, fun c => moved ε a (r.val c)⟩)
      = (targetVals y rows).map (moved ε a) := by
  simp [targetVals, Frame.moved, Frame.mapVals]

theorem rowsOf_moved (y : Frame String τ ℝ) (s : List String) :
    (y.moved ε a).rowsOf s
      = (y.rowsOf s).map fun r => ⟨r.sid, r.time, fun c => moved ε a (r.val c)⟩ := by
  simp only [Frame.moved, Frame.mapVals, Frame.rowsOf, List.filter_map]
  rfl

theorem series_moved {ι : Type} (y : Frame ι τ ℝ) : (y.moved ε a).series = y.series := by
  simp [Frame.moved, Frame.mapVals, Frame.series, Function.comp_def]

theorem rawScale_mirror (user : Option (Scale ℝ)) (y : Frame String τ ℝ) :
    rawScale user (y.moved (-1) 0) = rawScale user y := by
  unfold rawScale
  cases user with
  | some s => rfl
  | none =>
    simp only
    rw [show (y.moved (-1) 0).nlevels = y.nlevels from rfl]
    split
    · rw [show (y.moved (-1) 0).rows
        = y.rows.map fun r => ⟨r.sid, r.time, fun c => moved (-1) 0 (r.val c)⟩ from rfl,
        targetVals_moved, maxAbs?_mirror]
    · unfold groupMaxAbs
      simp only [series_moved, rowsOf_moved, targetVals_moved, maxAbs?_mirror]

theorem rowScales_moved {ι : Type} (s : Scale ℝ) (f : Frame ι τ ℝ) :
    rowScales s (f.moved ε a) = rowScales s f := by
  cases s with
  | float x => simp [rowScales, Frame.moved, Frame.mapVals, Function.comp_def]
  | int n => rfl
  | table e => simp [rowScales, Frame.moved, Frame.mapVals, List.mapM_map, Function.comp_def]

/-- Scaling the mirrored frame. -/
theorem applyScales_mirror {ι : Type} (g : ℝ → ℝ → ℝ) (hg : ∀ v k, g (-v) k = -g v k) (f : Frame ι τ ℝ)
    (ss : List ℝ) : applyScales g (f.moved (-1) 0) ss = (applyScales g f ss).moved (-1) 0 := by
  simp only [applyScales, Frame.moved, Frame.mapVals, Frame.mk.injEq, true_and]
  rw [List.zipWith_map_left, List.map_zipWith]
  congr 1
  funext r k
  simp [moved, hg]

theorem applyScales_shift {ι : Type} (g : ℝ → ℝ → ℝ) {k b : ℝ}
    (hg : ∀ v, g (moved ε b v) k = moved ε a (g v k)) (f : Frame ι τ ℝ) :
    applyScales g (f.moved ε b) (f.rows.map fun _ => k)
      = (applyScales g f (f.rows.map fun _ => k)).moved ε a := by
  simp only [applyScales, Frame.moved, Frame.mapVals, Frame.mk.injEq, true_and]
  rw [List.zipWith_map_left, List.map_zipWith, List.zipWith_map_right, List.zipWith_map_right]
  congr 1
  funext r _
  simp [hg]

end PV
