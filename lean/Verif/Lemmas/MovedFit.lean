import Verif.Lemmas.Moved
import Verif.Lemmas.Frame
import Verif.Model.AnyEffect

/-!
# Mirrored and shifted targets: fitting
-/

set_option linter.unusedSectionVars false

namespace PV
open Tensor
variable {ε a : ℝ} {τ : Type} [DecidableEq τ]

theorem times_moved {ι : Type} (y : Frame ι τ ℝ) : (y.moved ε a).times = y.times := by
  simp [Frame.moved, Frame.mapVals, Frame.times]

theorem flatVals_moved {ι : Type} (y : Frame ι τ ℝ) :
    (y.moved ε a).flatVals (y.moved ε a).rows = (y.flatVals y.rows).map (moved ε a) := by
  simp [Frame.moved, Frame.mapVals, Frame.flatVals, List.flatMap_map, List.map_flatMap,
    Function.comp_def]

theorem seriesToTensor_moved {ι : Type} {y : Frame ι τ ℝ} (hy : y.nlevels = 1) :
    (y.moved ε a).seriesToTensor = y.seriesToTensor.map fun t => t.map (moved ε a) := by
  unfold Frame.seriesToTensor
  rw [show (y.moved ε a).cols = y.cols from rfl, show (y.moved ε a).nlevels = y.nlevels from rfl]
  split
  · rfl
  · simp only [hy, if_true, flatVals_moved]
    simp [Except.map, Tensor.map, Frame.moved, Frame.mapVals]

/-! ## The lines of the detrender -/

theorem sum_map_moved : ∀ l : List ℝ, (l.map (moved ε a)).sum = ε * l.sum + l.length * a
  | [] => by simp
  | x :: l => by
    simp only [List.map_cons, List.sum_cons, sum_map_moved l, moved, List.length_cons]
    push_cast
    ring

theorem lineAt_moved {l : List (ℝ × ℝ)} (hl : l ≠ []) (x : ℝ) :
    lineAt (l.map fun p => (p.1, moved ε a p.2)) x = moved ε a (lineAt l x) := by
  have hn : (l.length : ℝ) ≠ 0 := by simpa using hl
  unfold lineAt
  simp only [List.map_map, List.length_map]
  have h1 : (l.map (Prod.fst ∘ fun p => (p.1, moved ε a p.2))) = l.map Prod.fst := rfl
  have h2 : (l.map (Prod.snd ∘ fun p => (p.1, moved ε a p.2))).sum / (l.length : ℝ)
      = moved ε a ((l.map Prod.snd).sum / l.length) := by
    rw [show (l.map (Prod.snd ∘ fun p => (p.1, moved ε a p.2)))
      = (l.map Prod.snd).map (moved ε a) by simp [Function.comp_def], sum_map_moved, List.length_map]
    unfold moved
    field_simp
  rw [h1, h2]
  set mx := (l.map Prod.fst).sum / (l.length : ℝ)
  set my := (l.map Prod.snd).sum / (l.length : ℝ)
  have h3 : ∀ k : List (ℝ × ℝ), (k.map ((fun p : ℝ × ℝ => (p.1 - mx) * (p.2 - moved ε a my)) ∘
      fun p => (p.1, moved ε a p.2))).sum = ε * (k.map fun p => (p.1 - mx) * (p.2 - my)).sum := by
    intro k
    induction k with
    | nil => simp
    | cons q k ih =>
      rw [List.map_cons, List.sum_cons, ih, List.map_cons, List.sum_cons]
      simp only [Function.comp, moved]
      ring
  rw [h3, show (l.map ((fun p : ℝ × ℝ => (p.1 - mx) ^ 2) ∘ fun p => (p.1, moved ε a p.2)))
    = l.map fun p => (p.1 - mx) ^ 2 from rfl]
  unfold moved
  ring

theorem fittedLines_moved {ι : Type} (pos : τ → ℝ) (y : Frame ι τ ℝ) :
    fittedLines pos (y.moved ε a) = (fittedLines pos y).moved ε a := by
  have hpts : ∀ s c, pointsOf pos (y.moved ε a) s c
      = (pointsOf pos y s c).map fun p => (p.1, moved ε a p.2) := by
    intro s c
    unfold pointsOf Frame.rowsOf
    simp only [Frame.moved, Frame.mapVals, List.filter_map, List.map_map]
    rfl
  unfold fittedLines
  simp only [Frame.moved, Frame.mapVals, List.map_map, Frame.mk.injEq, true_and]
  refine List.map_congr_left fun r hr => ?_
  simp only [Function.comp, Row.mk.injEq, true_and]
  funext c
  have hne : pointsOf pos y r.sid c ≠ [] := by
    unfold pointsOf Frame.rowsOf
    intro h
    have : r ∈ y.rows.filter fun r' => r'.sid = r.sid := List.mem_filter.2 ⟨hr, by simp⟩
    rw [List.map_eq_nil_iff.1 h] at this
    cases this
  have := hpts r.sid c
  simp only [Frame.moved, Frame.mapVals] at this
  rw [this, lineAt_moved hne]
  simp only [moved]
  ring

/-! ## The trend -/

/-- The attributes of the trend after the target has been moved: the suggested rates change sign
(`ε = -1`) and the location of the offset is moved. -/
def PiecewiseState.moved (ε a : ℝ) (s : PiecewiseState ℝ τ) : PiecewiseState ℝ τ :=
  { s with rates := s.rates.map (ε * ·), offsetLoc := s.offsetLoc.map (PV.moved ε a) }

theorem suggestLinear_moved {y : Frame String τ ℝ} (hy : y.nlevels = 1) (hrows : y.rows ≠ [])
    {ts : List ℝ} {t : Tensor ℝ} (ht : y.seriesToTensor = .ok t) :
    suggestLinear ts (t.map (moved ε a)) = (suggestLinear ts t).map fun s =>
      (s.1.map (ε * ·), s.2.map (moved ε a)) := by
  unfold Frame.seriesToTensor at ht
  split at ht
  · cases ht
  rename_i hcols
  cases ht
  have hlen : (y.flatVals y.rows).length = y.rows.length * y.cols.length := by
    unfold Frame.flatVals
    exact length_flatMap_const _ _ _ fun s _ => by simp
  have hr : 0 < y.rows.length := List.length_pos_of_ne_nil hrows
  have hc : 0 < y.cols.length := List.length_pos_of_ne_nil hcols
  have hcol : ∀ j < y.rows.length, ∃ v, ∀ g : ℝ → ℝ,
      column (Tensor.map g ⟨[1, y.rows.length, y.cols.length], y.flatVals y.rows⟩) j = [g v] := by
    intro j hj
    have hlt : j * y.cols.length < (y.flatVals y.rows).length := by
      rw [hlen]
      exact Nat.mul_lt_mul_of_pos_right hj hc
    refine ⟨(y.flatVals y.rows)[j * y.cols.length], fun g => ?_⟩
    simp [column, Tensor.map, get?, ravel, size, hlt]
  obtain ⟨v0, h0⟩ := hcol 0 hr
  obtain ⟨v1, h1⟩ := hcol (y.rows.length - 1) (by omega)
  have h0' := h0 fun x => x
  have h1' := h1 fun x => x
  rw [map_id'] at h0' h1'
  unfold suggestLinear
  cases ts.head? with
  | none => rfl
  | some t0 =>
    cases ts.getLast? with
    | none => rfl
    | some t1 =>
      simp only
      split
      · rfl
      · rename_i hne
        have hd : t0 - t1 ≠ 0 := sub_ne_zero.2 hne
        rw [show (Tensor.map (moved ε a) ⟨[1, y.rows.length, y.cols.length], y.flatVals y.rows⟩).shape
          = [1, y.rows.length, y.cols.length] from rfl]
        simp only [List.getD_cons_succ, List.getD_cons_zero]
        rw [h0, h1, h0', h1']
        simp only [Except.map, List.zipWith_cons_cons, List.zipWith_nil_left, List.map_cons,
          List.map_nil, Except.ok.injEq, Prod.mk.injEq, List.cons.injEq, and_true]
        unfold moved
        constructor
        · field_simp
          ring
        · field_simp
          ring

theorem piecewiseFit_moved {days : τ → ℝ} {p : PiecewiseParams ℝ τ} {y : Frame String τ ℝ}
    (hy : y.nlevels = 1)
    (hd : p.detrend = none ∨ ∃ pos, p.detrend = some fun y => .ok (fittedLines pos y)) :
    piecewiseFit days suggestLinear p (y.moved ε a)
      = (piecewiseFit days suggestLinear p y).map (PiecewiseState.moved ε a) := by
  unfold piecewiseFit
  have htt : trendTimeFit days (y.moved ε a) = trendTimeFit days y := by
    unfold trendTimeFit
    rw [times_moved]
    have : nSeriesOf (y.moved ε a) = nSeriesOf y := by
      unfold nSeriesOf
      rw [show (y.moved ε a).nlevels = y.nlevels from rfl, hy]
      rfl
    rw [this]
  rw [htt, times_moved]
  cases h : trendTimeFit days y with
  | error e => rfl
  | ok tt =>
    have hrows : y.rows ≠ [] := by
      intro h0
      unfold trendTimeFit at h
      simp [Frame.times, h0, unique] at h
    simp only [bind, Except.bind]
    cases setupChangepoints ((unique y.times).map (tt.scaled days)) tt.nSeries p.interval p.range with
    | error e => rfl
    | ok cps =>
      simp only
      have hdet : ∃ y', detrended p y = .ok y' ∧ detrended p (y.moved ε a) = .ok (y'.moved ε a) ∧
          y'.nlevels = 1 ∧ y'.rows ≠ [] := by
        unfold detrended
        rcases hd with hd | ⟨pos, hd⟩
        · rw [hd]
          exact ⟨y, rfl, rfl, hy, hrows⟩
        · rw [hd]
          exact ⟨fittedLines pos y, rfl, by simp only [fittedLines_moved], hy, by
            simpa [fittedLines] using hrows⟩
      obtain ⟨y', h1, h2, hy', hr'⟩ := hdet
      rw [h1, h2]
      simp only
      rw [seriesToTensor_moved hy', times_moved]
      cases h3 : y'.seriesToTensor with
      | error e => rfl
      | ok t =>
        simp only [Except.map]
        rw [suggestLinear_moved hy' hr' h3]
        cases suggestLinear ((unique y'.times).map (tt.scaled days)) t with
        | error e => rfl
        | ok s =>
          have hpv : priorVectors cps (s.1.map (ε * ·)) p.priorScale = priorVectors cps s.1 p.priorScale := by
            unfold priorVectors
            simp only [Prod.mk.injEq, and_true]
            rw [List.zip_map_right, List.flatMap_map]
            rfl
          simp only [Except.map, pure, Except.pure, hpv, PiecewiseState.moved,
            show (y.moved ε a).nlevels = y.nlevels from rfl, hy]
          rfl

end PV
