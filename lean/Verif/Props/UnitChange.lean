import Mathlib.Algebra.Order.Ring.Rat
import Mathlib.Data.Rat.Floor
import Verif.Lemmas.UnitChange
import Verif.Lemmas.Quantile
import Verif.Props.Samples

/-!
# C04 and C05: units of the target
-/

set_option linter.unusedSectionVars false

namespace PV
variable {K τ : Type} [Field K] [LinearOrder K] [IsStrictOrderedRing K] [LinearOrder τ]

/-- `g` is `f` with every value multiplied by `c` (same labels, columns and order). -/
def IsMultiple {ι : Type} (c : K) (f g : Frame ι τ K) : Prop :=
  g.nlevels = f.nlevels ∧ g.cols = f.cols ∧
  List.Forall₂ (fun r' r => r'.sid = r.sid ∧ r'.time = r.time ∧ ∀ k, r'.val k = c * r.val k)
    g.rows f.rows

theorem isMultiple_smul {ι : Type} (c : K) (f : Frame ι τ K) : IsMultiple c f (f.smul c) := by
  refine ⟨rfl, rfl, ?_⟩
  simp [Frame.smul, Frame.mapVals, List.forall₂_map_left_iff, List.forall₂_same]

/-- Every series of `y` has a non-zero value. -/
def NoZeroSeries (y : Frame String τ K) (col : String) : Prop :=
  ∀ r ∈ y.rows, ∃ r' ∈ y.rows, r'.sid = r.sid ∧ r'.val col ≠ 0

/-- **C04**, first half: the model receives exactly the same target. -/
theorem C04_same_model_data {c : K} (hc : 0 < c) {y : Frame String τ K} {col : String}
    (hcol : y.cols = [col]) (hne : y.rows ≠ []) (hnz : NoZeroSeries y col) :
    (fitTarget false none (y.smul c)).map Prod.snd = (fitTarget false none y).map Prod.snd := by
  obtain ⟨s, h1, h2, -⟩ := setYScales_smul hc hcol hne hnz
  unfold fitTarget
  rw [h1, h2]
  simp only [bind, Except.bind]
  rw [scaleY_smul hc]
  cases scaleY false s y <;> rfl

/-- **C04**, second half: every forecast sample is multiplied by `c`; the call on `c * y`
fails exactly when the call on `y` does. -/
theorem C04_samples_scale {c : K} (hc : 0 < c) {y : Frame String τ K} {col : String}
    (hcol : y.cols = [col]) (hne : y.rows ≠ []) (hnz : NoZeroSeries y col)
    (engine : Frame String τ K → Tensor K)
    (internal : List (List String × τ) → List (List String)) (hier : Bool) (fh : List τ) :
    (∀ e, fitPredictSamples engine internal hier false none y fh = .error e →
      fitPredictSamples engine internal hier false none (y.smul c) fh = .error e) ∧
    (∀ f, fitPredictSamples engine internal hier false none y fh = .ok f →
      ∃ g, fitPredictSamples engine internal hier false none (y.smul c) fh = .ok g ∧
        IsMultiple c f g) := by
  suffices h : fitPredictSamples engine internal hier false none (y.smul c) fh
      = (fitPredictSamples engine internal hier false none y fh).map (Frame.smul c) by
    constructor
    · intro e he; rw [h, he]; rfl
    · intro f hf; exact ⟨f.smul c, by rw [h, hf]; rfl, isMultiple_smul c f⟩
  obtain ⟨s, h1, h2, -⟩ := setYScales_smul hc hcol hne hnz
  unfold fitPredictSamples fitTarget
  rw [h1, h2]
  simp only [bind, Except.bind]
  rw [scaleY_smul hc]
  cases scaleY false s y with
  | error e => rfl
  | ok ys =>
    simp only [pure, Except.pure]
    have hidx : (y.smul c).index = y.index := by
      simp [Frame.index, Frame.smul, Frame.mapVals]
    rw [hidx]
    exact predictSamples_scale_mul (ctx := ⟨y.nlevels, internal y.index, hier, false, s⟩)
      (ctx' := ⟨y.nlevels, internal y.index, hier, false, Scale.mul c s⟩)
      rfl rfl rfl rfl rfl rfl _ _

theorem sum_map_const_mul (c : K) (xs : List K) : (xs.map (c * ·)).sum = c * xs.sum := by
  induction xs with
  | nil => simp
  | cons x xs ih => simp only [List.map_cons, List.sum_cons, ih]; ring

/-- **C04**, point forecasts: multiplied by `c`. -/
theorem C04_point_scales (name : String) {c : K} {f g : Frame Nat τ K}
    (h : IsMultiple c f g) : IsMultiple c (predictPoint name f) (predictPoint name g) := by
  obtain ⟨h1, h2, h3⟩ := h
  refine ⟨h1, rfl, ?_⟩
  simp only [predictPoint, List.forall₂_map_left_iff, List.forall₂_map_right_iff]
  refine h3.imp ?_
  rintro r' r ⟨hs, ht, hv⟩
  refine ⟨hs, ht, fun _ => ?_⟩
  rw [h2]
  have : f.cols.map r'.val = (f.cols.map r.val).map (c * ·) := by
    rw [List.map_map]; exact List.map_congr_left fun k _ => hv k
  rw [this, sum_map_const_mul, mul_div_assoc]

theorem insertionSort_mul {c : K} (hc : 0 < c) (xs : List K) :
    (xs.map (c * ·)).insertionSort (· ≤ ·) = (xs.insertionSort (· ≤ ·)).map (c * ·) := by
  refine (List.map_insertionSort (r := (· ≤ ·)) (s := (· ≤ ·)) (f := (c * ·)) xs ?_).symm
  intro a _ b _
  exact (mul_le_mul_iff_right₀ hc).symm

theorem quantile_mul [FloorRing K] {c : K} (hc : 0 < c) (xs : List K) (a : K) :
    quantile (xs.map (c * ·)) a = c * quantile xs a := by
  rw [quantile_eq_interp, quantile_eq_interp, insertionSort_mul hc, List.length_map]
  unfold interp
  rw [List.length_map]
  have hg : ∀ i, ((xs.insertionSort (· ≤ ·)).map (c * ·)).getD i 0
      = c * (xs.insertionSort (· ≤ ·)).getD i 0 := by
    intro i
    simp only [List.getD_eq_getElem?_getD, List.getElem?_map]
    cases (xs.insertionSort (· ≤ ·))[i]? <;> simp
  rw [hg, hg]
  ring

/-- **C04**, quantiles: multiplied by `c`. -/
theorem C04_quantiles_scale [FloorRing K] (name : String) (alphas : List K) {c : K}
    (hc : 0 < c) {f g : Frame Nat τ K} (h : IsMultiple c f g)
    {q : Frame (String × K) τ K} (hq : predictQuantiles name alphas f = .ok q) :
    ∃ q', predictQuantiles name alphas g = .ok q' ∧ IsMultiple c q q' := by
  obtain ⟨h1, h2, h3⟩ := h
  unfold predictQuantiles at hq ⊢
  split at hq
  · rename_i ha
    cases hq
    rw [if_pos ha]
    refine ⟨_, rfl, h1, rfl, ?_⟩
    simp only [List.forall₂_map_left_iff, List.forall₂_map_right_iff]
    refine h3.imp ?_
    rintro r' r ⟨hs, ht, hv⟩
    refine ⟨hs, ht, fun k => ?_⟩
    rw [h2]
    have : f.cols.map r'.val = (f.cols.map r.val).map (c * ·) := by
      rw [List.map_map]; exact List.map_congr_left fun k _ => hv k
    rw [this, quantile_mul hc]
  · cases hq

/-- **C05.** With a discrete likelihood the model receives `y` itself, whatever the scale. -/
theorem C05_target_unscaled {user : Option (Scale K)} {y : Frame String τ K}
    {s : Scale K} (h : setYScales user y = .ok s) :
    fitTarget true user y = .ok (s, y) := by
  simp [fitTarget, h, scaleY, bind, Except.bind, pure, Except.pure]

/-- **C05.** With a discrete likelihood forecast samples are the draws themselves: the row of a
series and time holds the draws of that series and time, not multiplied by anything, whatever the
scale. -/
theorem C05_draws_unscaled {ctx : Fitted K} (hd : ctx.discrete = true) {obs : Tensor K}
    {fh : List τ} {f : Frame Nat τ K} {S k : Nat} (hw : obs.WF)
    (hsh : obs.shape =
      S :: (List.replicate k 1 ++ [fh.length, (forecastSeries ctx).length]))
    (h : predictSamples ctx obs fh = .ok f) :
    ∀ r ∈ f.rows, ∃ i t, (forecastSeries ctx)[i]? = some r.sid ∧ fh[t]? = some r.time ∧
      ∀ s < S, obs.get? (s :: (List.replicate k 0 ++ [t, i])) = some (r.val s) := by
  intro r hr
  obtain ⟨i, t, hi, ht, c, hc, hv⟩ := (C06_sample_alignment hw hsh h).2 r hr
  have hc1 : c = 1 := by
    rcases hc with ⟨_, h⟩ | ⟨h, _⟩ | ⟨h, _⟩
    · exact h
    · rw [hd] at h; cases h
    · rw [hd] at h; cases h
  refine ⟨i, t, hi, ht, fun s hs => ?_⟩
  obtain ⟨v, h1, h2⟩ := hv s hs
  rw [h2, hc1, mul_one]
  exact h1

/-- Counts with a scale of 100: the draws 7 and 9 come back as they are. -/
example : (predictSamples (K := ℚ) (τ := Nat)
      { yNlevels := 1, internalSids := [[], []], hierarchical := false, discrete := true,
        scale := .float 100 } ⟨[2, 1, 1], [7, 9]⟩ [3]).toOption.map
      (fun f => f.rows.map fun r => (r.time, f.cols.map r.val)) = some [(3, [7, 9])] := by
  decide +kernel

/-! ### Concrete case: a panel of two series, an engine that returns the scaled target -/

def exUnitY : Frame String Nat ℚ :=
  { nlevels := 2, cols := ["y"],
    rows := [⟨["a"], 1, fun _ => 2⟩, ⟨["a"], 2, fun _ => -4⟩,
             ⟨["b"], 1, fun _ => 5⟩, ⟨["b"], 2, fun _ => 0⟩] }

def exEngine (y : Frame String Nat ℚ) : Tensor ℚ := ⟨[2, 2, 2], y.rows.flatMap fun r =>
  [r.val "y", r.val "y" + 1]⟩

example : NoZeroSeries exUnitY "y" := by
  intro r hr
  simp only [exUnitY, List.mem_cons, List.not_mem_nil, or_false] at hr
  rcases hr with rfl | rfl | rfl | rfl
  · exact ⟨⟨["a"], 1, fun _ => 2⟩, by simp [exUnitY], rfl, by norm_num⟩
  · exact ⟨⟨["a"], 1, fun _ => 2⟩, by simp [exUnitY], rfl, by norm_num⟩
  · exact ⟨⟨["b"], 1, fun _ => 5⟩, by simp [exUnitY], rfl, by norm_num⟩
  · exact ⟨⟨["b"], 1, fun _ => 5⟩, by simp [exUnitY], rfl, by norm_num⟩

example : (fitPredictSamples exEngine (·.map Prod.fst) true false none exUnitY [1, 2]).toOption.map
    (fun f => f.rows.map fun r => (r.sid, r.time, f.cols.map r.val)) =
    some [(["a"], 1, [2, 4]), (["a"], 2, [-4, 0]), (["b"], 1, [15 / 2, 10]),
      (["b"], 2, [0, 5])] := by decide +kernel

/-- An identically zero series of a panel keeps scale 1 in every unit, so the equivariance
hypothesis on zero series cannot be dropped. -/
theorem C04_zero_series_refuted :
    ∃ (engine : Frame String Nat ℚ → Tensor ℚ) (y : Frame String Nat ℚ) (f g : Frame Nat Nat ℚ),
      fitPredictSamples engine (·.map Prod.fst) true false none y [1] = .ok f ∧
      fitPredictSamples engine (·.map Prod.fst) true false none (y.smul 2) [1] = .ok g ∧
      ¬ IsMultiple 2 f g := by
  let y : Frame String Nat ℚ := { nlevels := 2, cols := ["y"], rows := [⟨["a"], 1, fun _ => 0⟩] }
  let engine : Frame String Nat ℚ → Tensor ℚ := fun _ => ⟨[1, 1, 1], [1]⟩
  have h1 : (fitPredictSamples engine (·.map Prod.fst) true false none y [1]).toOption.map
      (fun f => f.rows.map fun r => r.val 0) = some [1] := by decide +kernel
  have h2 : (fitPredictSamples engine (·.map Prod.fst) true false none
      (y.smul 2) [1]).toOption.map (fun f => f.rows.map fun r => r.val 0) = some [1] := by
    decide +kernel
  cases hf : fitPredictSamples engine (·.map Prod.fst) true false none y [1] with
  | error e => rw [hf] at h1; cases h1
  | ok f =>
    cases hg : fitPredictSamples engine (·.map Prod.fst) true false none (y.smul 2) [1] with
    | error e => rw [hg] at h2; cases h2
    | ok g =>
      refine ⟨engine, y, f, g, hf, hg, ?_⟩
      rintro ⟨-, -, h⟩
      rw [hf] at h1
      rw [hg] at h2
      simp only [Except.toOption, Option.map_some, Option.some.injEq] at h1 h2
      have h3 : List.Forall₂ (fun a b : ℚ => a = 2 * b) (g.rows.map fun r => r.val 0)
          (f.rows.map fun r => r.val 0) := by
        rw [List.forall₂_map_left_iff, List.forall₂_map_right_iff]
        exact h.imp fun _ _ h => h.2.2 0
      rw [h1, h2] at h3
      cases h3 with
      | cons h _ => norm_num at h

end PV
