import Verif.Props.World

/-!
# C47: a diverged MAP optimisation is reported
-/

namespace PV
section
variable {κ G A K Θ P O : Type}

/-- **C47**, the engine: if the last loss is NaN, `infer` raises `MAPInferenceEngineError` and the
engine has no new posterior samples. -/
theorem C47_nan_raises (np : Numpyro κ G A K Θ P O) (e : Engine κ G K Θ P O) (hk : e.kind = .map)
    (a : A) (θ : Θ) (losses : List (Option K))
    (hr : np.svi e.rngKey e.settings a = .ok ⟨θ, losses ++ [none]⟩) :
    (e.infer np a).1 = .error .mapInferenceEngineError ∧ (e.infer np a).2.posterior = e.posterior := by
  simp [Engine.infer, hk, Engine.inferMap, hr, raiseIfNanLoss]

/-- **C47**, the engine: if the last loss is a number — whatever the losses before it, NaN
included — and the guide can be sampled, `infer` returns and the engine has posterior samples. -/
theorem C47_number_succeeds (np : Numpyro κ G A K Θ P O) (e : Engine κ G K Θ P O)
    (hk : e.kind = .map) (a : A) (θ : Θ) (losses : List (Option K)) (x : K) (p : P)
    (hr : np.svi e.rngKey e.settings a = .ok ⟨θ, losses ++ [some x]⟩)
    (hp : np.samplePosterior e.rngKey e.settings θ a = .ok p) :
    (e.infer np a).1 = .ok () ∧ (e.infer np a).2.posterior = some p := by
  simp [Engine.infer, hk, Engine.inferMap, hr, raiseIfNanLoss, hp]

/-- **C47**, the converse: the error of the class `MAPInferenceEngineError` has no other cause, unless
numpyro itself raises it. -/
theorem C47_only_nan (np : Numpyro κ G A K Θ P O) (e : Engine κ G K Θ P O) (a : A)
    (hs : ∀ k g a, np.svi k g a ≠ .error .mapInferenceEngineError)
    (hp : ∀ k g t a, np.samplePosterior k g t a ≠ .error .mapInferenceEngineError)
    (hn : ∀ k g a, np.nuts k g a ≠ .error .mapInferenceEngineError)
    (h : (e.infer np a).1 = .error .mapInferenceEngineError) :
    e.kind = .map ∧ ∃ r, np.svi e.rngKey e.settings a = .ok r ∧ r.losses.getLast? = some none := by
  unfold Engine.infer at h
  cases hk : e.kind with
  | mcmc =>
    simp only [hk, Engine.inferMcmc] at h
    have := hn e.rngKey e.settings a
    split at h
    · rename_i heq
      simp only [Except.error.injEq] at h
      exact absurd (h ▸ heq) this
    · cases h
  | map =>
    refine ⟨rfl, ?_⟩
    simp only [hk, Engine.inferMap] at h
    cases hr : np.svi e.rngKey e.settings a with
    | error err =>
      simp only [hr, Except.error.injEq] at h
      exact absurd (h ▸ hr) (hs _ _ _)
    | ok r =>
      refine ⟨r, rfl, ?_⟩
      simp only [hr, raiseIfNanLoss] at h
      cases hl : r.losses.getLast? with
      | none => simp [hl] at h
      | some l =>
        cases l with
        | none => rfl
        | some x =>
          simp only [hl] at h
          have := hp e.rngKey e.settings r.params a
          split at h
          · rename_i heq
            simp only [Except.error.injEq] at h
            exact absurd (h ▸ heq) this
          · cases h

end

section
variable {S τ D K F κ G Θ P : Type} [Field K] [LinearOrder K] [LinearOrder τ]
  [FloorRing K] {H : Type}

/-- **C47**, the forecaster: if `inference_method="map"` and the optimisation on the prepared data
ends in NaN, then `fit` raises `MAPInferenceEngineError`, the forecaster is not fitted and has no
posterior samples, and `predict` and `predict_quantiles` raise. -/
theorem C47_fit_raises (np : Numpyro κ G (ModelArgs D K) K Θ P (Draws K))
    (horizon : List τ → H → List τ) {w : World S τ D K F κ G Θ P} {i : Nat}
    {fc : Fc S τ D K κ G Θ P} (hi : w.fcs[i]? = some fc) {c : Contents S τ D K F κ G}
    (hc : Resolves w.heap w.feats fc.cfg c) (hm : c.method = "map") (y : Frame String τ K)
    (X : Option (Frame String τ K)) {v : ValPrepared S τ D K} (hv : valPrepare c y X = .ok v)
    (θ : Θ) (losses : List (Option K))
    (hr : np.svi (c.rngKey.getD (np.prngKey 24)) c.settings v.fitArgs
      = .ok ⟨θ, losses ++ [none]⟩) :
    (w.fit np i y X).1 = .error .mapInferenceEngineError ∧
      (∃ fc', (w.fit np i y X).2.fcs[i]? = some fc' ∧ fc'.isFitted = false ∧
        fc'.posterior = none) ∧
      ∀ q : Query K, q.checked = true → ∀ X' fh,
        ((w.fit np i y X).2.predict np horizon i q X' fh).1 = .error .valueError := by
  obtain ⟨h1, fc', h2, h3, h4⟩ := fit_sim np hi hc y X
  have hinf : (valInfer np c v.fitArgs).1 = .error .mapInferenceEngineError := by
    unfold valInfer
    rw [hm]
    exact (C47_nan_raises np (Engine.new np .map c.settings (some (c.rngKey.getD (np.prngKey 24)))) rfl
      v.fitArgs θ losses hr).1
  have hfit : valFit np c y X = .error .mapInferenceEngineError := by
    unfold valFit
    rw [hv]
    exact hinf
  refine ⟨h1.trans hfit, ⟨fc', h2, ?_⟩, fun q hq X' fh => ?_⟩
  · unfold AfterFit at h4
    rw [hv] at h4
    obtain ⟨p, -, -, -, h5, h6⟩ := h4
    rw [h5, h6]
    unfold valPosterior
    rw [hinf]
    exact ⟨rfl, rfl⟩
  · rw [(fit_predict_value np horizon hi hc y X).2 q X' fh]
    unfold valPredict
    rw [hfit, hq]
    rfl

/-- **C47**, the forecaster: if the optimisation ends in a number and the guide can be sampled,
`fit` returns, and the forecaster is fitted and has posterior samples. -/
theorem C47_fit_succeeds (np : Numpyro κ G (ModelArgs D K) K Θ P (Draws K))
    {w : World S τ D K F κ G Θ P} {i : Nat}
    {fc : Fc S τ D K κ G Θ P} (hi : w.fcs[i]? = some fc) {c : Contents S τ D K F κ G}
    (hc : Resolves w.heap w.feats fc.cfg c) (hm : c.method = "map") (y : Frame String τ K)
    (X : Option (Frame String τ K)) {v : ValPrepared S τ D K} (hv : valPrepare c y X = .ok v)
    (θ : Θ) (losses : List (Option K)) (x : K) (p : P)
    (hr : np.svi (c.rngKey.getD (np.prngKey 24)) c.settings v.fitArgs
      = .ok ⟨θ, losses ++ [some x]⟩)
    (hp : np.samplePosterior (c.rngKey.getD (np.prngKey 24)) c.settings θ v.fitArgs = .ok p) :
    (w.fit np i y X).1 = .ok () ∧
      ∃ fc', (w.fit np i y X).2.fcs[i]? = some fc' ∧ fc'.isFitted = true ∧
        fc'.posterior = some p := by
  obtain ⟨h1, fc', h2, h3, h4⟩ := fit_sim np hi hc y X
  obtain ⟨hi1, hi2⟩ := C47_number_succeeds np
    (Engine.new np .map c.settings (some (c.rngKey.getD (np.prngKey 24)))) rfl v.fitArgs θ losses x p
    hr hp
  have hinf : (valInfer np c v.fitArgs).1 = .ok () := by
    unfold valInfer
    rw [hm]
    exact hi1
  have hpost : valPosterior (valInfer np c v.fitArgs) = some p := by
    unfold valPosterior
    rw [hinf]
    unfold valInfer
    rw [hm]
    exact hi2
  have hfit : valFit np c y X = .ok () := by
    unfold valFit
    rw [hv]
    exact hinf
  refine ⟨h1.trans hfit, fc', h2, ?_⟩
  unfold AfterFit at h4
  rw [hv] at h4
  obtain ⟨p, -, -, -, h5, h6⟩ := h4
  rw [h5, h6, hpost, hinf]
  exact ⟨rfl, rfl⟩

end

/-! ## Non-vacuity -/

/-- A numpyro whose optimisation diverges. -/
def exDiverging : Numpyro Nat Unit (ModelArgs (Tensor ℚ) ℚ) ℚ Unit Unit (Draws ℚ) :=
  { exNumpyro with svi := fun _ _ _ => .ok ⟨(), [some 1, none]⟩ }

/-- One forecaster, constructed but not fitted. -/
def exOne : World ExState ℤ (Tensor ℚ) ℚ ℚ Nat Unit Unit Unit :=
  exWorld.step exNumpyro exHorizon (.new (exConfigW (.object 0) none))

example : Resolves exOne.heap exOne.feats (exConfigW (.object 0) none) (exContents none) ∧
    (valPrepare (exContents none) (exTarget [0, 1, 2, 3]) none).isOk = true :=
  ⟨HasContents.resolves ⟨rfl, ⟨exTrendObj, rfl, rfl, fun _ _ _ _ _ => rfl⟩, .nil, rfl, trivial, rfl, rfl,
    rfl, rfl, rfl, rfl⟩, by decide +kernel⟩

/-- After the failed `fit`, `predict` raises; `predict_samples`, which does not check, answers from
the diverged parameters. -/
example :
    (exOne.fit exDiverging 0 (exTarget [0, 1, 2, 3]) none).1.isOk = false ∧
      ((exOne.fit exDiverging 0 (exTarget [0, 1, 2, 3]) none).2.predict exDiverging exHorizon 0 .point
        none [4]).1.isOk = false ∧
      exTable ((exOne.fit exDiverging 0 (exTarget [0, 1, 2, 3]) none).2.predict exDiverging exHorizon 0
        .samples none [4]).1 = some [(4, 128)] ∧
      (exOne.fit exNumpyro 0 (exTarget [0, 1, 2, 3]) none).1.isOk = true := by
  decide +kernel

end PV
