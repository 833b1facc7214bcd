import Verif.Spec.Learned
import Verif.Lemmas.AfterFit
import Verif.Props.EndToEnd

/-!
# C91: predictions come from the posterior learned from the training data
-/

namespace PV
section
variable {S τ D K F κ G Θ P H : Type} [Field K] [LinearOrder K] [LinearOrder τ]

theorem infer_learned {np : Numpyro κ G (ModelArgs D K) K Θ P (Draws K)}
    {cfg : FcConfig S τ D K κ G} {e0 eng : Engine κ G K Θ P (Draws K)} {a : ModelArgs D K}
    (h0 : makeEngine np cfg = .ok e0) (h : e0.infer np a = (.ok (), eng)) :
    LearnedFrom np cfg a (eng.draws np) := by
  unfold makeEngine at h0
  simp only [bind, Except.bind] at h0
  cases hm : selectEngine cfg.method with
  | error e => rw [hm] at h0; cases h0
  | ok k =>
    rw [hm] at h0
    cases h0
    cases k with
    | map =>
      left
      refine ⟨?_, ?_⟩
      · unfold selectEngine at hm
        split at hm
        · cases hm
        · split at hm
          · assumption
          · cases hm
      · unfold Engine.infer Engine.inferMap Engine.new at h
        simp only [Option.getD_some] at h
        split at h
        · cases h
        · rename_i run hrun
          split at h
          · cases h
          · rename_i hl
            split at h
            · cases h
            · cases h
              unfold raiseIfNanLoss at hl
              split at hl
              · cases hl
              · cases hl
              · rename_i loss hloss
                exact ⟨run, loss, hrun, hloss, rfl⟩
    | mcmc =>
      right
      refine ⟨?_, ?_⟩
      · unfold selectEngine at hm
        split at hm
        · assumption
        · split at hm <;> cases hm
      · unfold Engine.infer Engine.inferMcmc Engine.new at h
        simp only [Option.getD_some] at h
        split at h
        · cases h
        · rename_i p hp
          cases h
          exact ⟨p, hp, rfl⟩

/-- **C91**: after `fit` has returned, every prediction method draws from the posterior of the model
called with the training target, with the key and the settings of the forecaster; the model is called
with the trend, the effects and the constants it was trained with, and without a target.  Nothing
else can go wrong but preparing the data, drawing and converting the draws. -/
theorem C91_learned [FloorRing K] {np : Numpyro κ G (ModelArgs D K) K Θ P (Draws K)}
    (horizon : List τ → H → List τ) {w w' : World S τ D K F κ G Θ P} {i : Nat}
    {fc0 : Fc S τ D K κ G Θ P} (hi : w.fcs[i]? = some fc0)
    {y : Frame String τ K} {X : Option (Frame String τ K)} (h : w.fit np i y X = (.ok (), w')) :
    ∃ p ys a draw, fitTarget fc0.cfg.discrete fc0.cfg.scale y = .ok (p.scale, ys) ∧
      TrainedOn fc0.cfg.hier y ys p.ySids a ∧ LearnedFrom np fc0.cfg a draw ∧
      (∀ X' ts a', predictArgs w'.heap w'.feats fc0.cfg p X' ts = .ok a' →
        a'.y = none ∧ SameModel a a') ∧
      ∀ q X' fh, (w'.predict np horizon i q X' fh).1
        = (predictArgs w'.heap w'.feats fc0.cfg p X' (horizon y.times fh)).bind fun a' =>
            (draw a').bind fun d =>
              q.answer fc0.cfg.hier (p.ctx fc0.cfg) (y.cols.headD "") d (horizon y.times fh) := by
  obtain ⟨fc0', fc, p, eng, ys, a, h0, h1, hF, ⟨t, ht, hta⟩, ⟨objs, ho, hoa⟩, hk⟩ := fit_heap h
  rw [hi] at h0
  cases h0
  obtain ⟨e0, he0, hinf⟩ := hF.inferred
  refine ⟨p, ys, a, eng.draws np, hF.scale, hF.trained, infer_learned he0 hinf,
    fun X' ts a' ha => ?_, fun q X' fh => ?_⟩
  · unfold predictArgs at ha
    simp only [bind, Except.bind, ht, ho] at ha
    split at ha
    · cases ha
    split at ha
    · cases ha
    split at ha
    · cases ha
    split at ha
    · cases ha
    cases ha
    exact ⟨rfl, hta.symm, hoa.symm, hk.symm⟩
  have hpy := hF.target
  have hcfg := hF.cfg_eq
  rw [← hpy, ← hcfg]
  cases ha : predictArgs w'.heap w'.feats fc.cfg p X' (horizon p.y.times fh) with
  | error e =>
    unfold World.predict
    simp only [h1, hF.prepared, hF.engine, hF.fitted, ha, Bool.not_true, Bool.and_false,
      Bool.false_eq_true, if_false, Except.bind]
  | ok a' =>
    unfold World.predict
    simp only [h1, hF.prepared, hF.engine, hF.fitted, ha, Bool.not_true, Bool.and_false,
      Bool.false_eq_true, if_false, Engine.predict_fst]
    rfl

end

/-! Example: the first forecaster of `exBoth`, with `"map"` and with `"mcmc"`: `fit` and
`predict_samples` return.  (`exBoth` has a numpyro without `"mcmc"`.) -/

def exMcmc : Numpyro Nat Unit (ModelArgs (Tensor ℚ) ℚ) ℚ Unit Unit (Draws ℚ) :=
  { exNumpyro with predictiveSamples := exNumpyro.predictiveGuide }

def exOne91 (method : String) : World ExState ℤ (Tensor ℚ) ℚ ℚ Nat Unit Unit Unit :=
  exWorld.run exMcmc exHorizon
    [.new { exConfigW (.named exTrendObj) none with method := method }]

example : (∀ m ∈ ["map", "mcmc"],
    ((exOne91 m).fit exMcmc 0 (exTarget [0, 1, 2, 3]) none).1.toOption = some () ∧
    (Answer.rowsOf (((exOne91 m).fit exMcmc 0 (exTarget [0, 1, 2, 3]) none).2.predict exMcmc
      exHorizon 0 .samples none [4, 5]).1).map List.length = some 2) ∧
    ((exOne91 "vi").fit exMcmc 0 (exTarget [0, 1, 2, 3]) none).1.toOption = none := by
  decide +kernel

end PV
