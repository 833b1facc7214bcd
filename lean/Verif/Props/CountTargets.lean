import Verif.Props.Config
import Verif.Props.UnitChange

/-!
# C05 for configured forecasters
-/

namespace PV
section
variable {K τ E : Type} [Field K] [LinearOrder K] [IsStrictOrderedRing K] [LinearOrder τ]

/-- **C05** from the configuration on: a univariate forecaster with `likelihood="negbinomial"` hands
`y` itself to the model, and its samples are the draws; with `"normal"`, `"gamma"` and for
hierarchical forecasters the target is `y` divided by the scale. -/
theorem C05_configured {c : Config K E} (hk : c.kind = .univariate)
    (hl : c.likelihood = "negbinomial") {user : Option (Scale K)} {y : Frame String τ K}
    {s : Scale K} (hs : setYScales user y = .ok s) :
    fitTarget (isDiscrete c) user y = .ok (s, y) ∧
    ∀ {ctx : Fitted K} {obs : Tensor K} {fh : List τ} {f : Frame Nat τ K} {S k : Nat},
      ctx.discrete = isDiscrete c → obs.WF →
      obs.shape = S :: (List.replicate k 1 ++ [fh.length, (forecastSeries ctx).length]) →
      predictSamples ctx obs fh = .ok f →
      ∀ r ∈ f.rows, ∃ i t, (forecastSeries ctx)[i]? = some r.sid ∧ fh[t]? = some r.time ∧
        ∀ s < S, obs.get? (s :: (List.replicate k 0 ++ [t, i])) = some (r.val s) := by
  have hd : isDiscrete c = true := C60_discrete.2 ((C60_likelihood_table hk _).2 (by simp [hl]))
  rw [hd]
  exact ⟨C05_target_unscaled hs, fun h1 hw hsh hp => C05_draws_unscaled h1 hw hsh hp⟩

/-- **C05**, the converse: every other forecaster divides the target by the scale. -/
theorem C05_others_scaled {c : Config K E}
    (h : c.kind = .hierarchical ∨ c.likelihood ≠ "negbinomial") {x : K} {y : Frame String τ K}
    {user : Option (Scale K)} (hs : setYScales user y = .ok (.float x)) :
    fitTarget (isDiscrete c) user y = .ok (.float x, y.mapVals fun _ v => v / x) := by
  have hd : isDiscrete c = false := by
    unfold isDiscrete
    rcases h with h | h
    · rw [h]
    · cases c.kind with
      | hierarchical => rfl
      | univariate => simpa using h
  rw [hd]
  unfold fitTarget scaleY
  rw [hs]
  simp only [bind, Except.bind, pure, Except.pure, rowScales, Bool.false_eq_true, if_false]
  congr 2
  unfold applyScales Frame.mapVals
  congr 1
  induction y.rows with
  | nil => rfl
  | cons r l ih => simp only [List.map_cons, List.zipWith_cons_cons, ih]

end

/-! ## Non-vacuity -/

/-- A forecaster for counts. -/
def exCountConfig : Config ℚ Unit :=
  { kind := .univariate, trend := .name "linear", interval := .scalar 25, range := .scalar (8/10),
    priorScale := .scalar 1, offsetPriorScale := 1, capacityPriorScale := 1, capacityPriorLoc := 1,
    noiseScale := 1, correlationConcentration := 1, likelihood := "negbinomial",
    inferenceMethod := "map", rngKey := none }

/-- Counts over two days. -/
def exCounts : Frame String Nat ℚ := ⟨1, ["y"], [⟨[], 0, fun _ => 3⟩, ⟨[], 1, fun _ => 8⟩]⟩

example : exCountConfig.kind = .univariate ∧ exCountConfig.likelihood = "negbinomial" := ⟨rfl, rfl⟩
example : setYScales none exCounts = .ok (.float 8) := by decide +kernel
example : (fitTarget (isDiscrete exCountConfig) none exCounts).map
    (fun p => (p.1, p.2.rows.map fun r => r.val "y")) = .ok (.float 8, [3, 8]) := by decide +kernel
example : (fitTarget (isDiscrete { exCountConfig with likelihood := "normal" }) none exCounts).map
    (fun p => (p.1, p.2.rows.map fun r => r.val "y")) = .ok (.float 8, [3/8, 1]) := by decide +kernel

end PV
