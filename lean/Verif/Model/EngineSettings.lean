import Verif.Model.Engine
import Verif.Model.Variants

/-!
# Which settings an engine uses (`engine.py` 97-198, 240-320; `sktime/base.py` 250-268)

The settings `G` of `Model/Engine.lean` in detail: the record below is everything a forecaster hands
to its engine, and `numpyroOf` says which part reaches which call of numpyro.
-/

namespace PV

/-- `model`: the model function with its constants; the optimizer as configured; numbers.
(`sktime/base.py` 251-265.) -/
structure EngineSettings (M W : Type) where
  model : M
  optimizerName : Option String
  optimizerKwargs : Option (PyDict W)
  optimizerSteps : Nat
  mcmcSamples : Nat
  mcmcWarmup : Nat
  mcmcChains : Nat

/-- Calls of numpyro with the arguments the engines pass.  `O'`: optimizers.
(`engine.py` 130-151, 190-197, 280-287, 315-319.) -/
structure NumpyroCalls (κ M O' A K Θ P O : Type) where
  prngKey : Nat → κ
  /-- `SVI(model, guide, optimizer, ...).run(rng_key, num_steps, **kwargs)` -/
  svi : κ → M → O' → Nat → A → PyM (SviRun K Θ)
  /-- `guide.sample_posterior` -/
  samplePosterior : κ → M → Θ → A → PyM P
  /-- `MCMC(NUTS(model), num_samples, num_warmup, num_chains).run(rng_key, **kwargs)` -/
  nuts : κ → M → Nat → Nat → Nat → A → PyM P
  /-- `Predictive(model, params, guide, num_samples)`; `num_samples` is a constant of `engine.py` -/
  predictiveGuide : κ → M → Θ → A → PyM O
  /-- `Predictive(model, posterior_samples, num_samples)` -/
  predictiveSamples : κ → M → P → Nat → A → PyM O

/-- What `MAPInferenceEngine` and `MCMCInferenceEngine` do with the settings: the optimizer is made
inside `infer` of the former (`engine.py` 138-145), `NUTS` is run by the latter (`engine.py`
270-298), and the prediction needs the model and the number of samples only (`engine.py` 190-196,
315-319). -/
def numpyroOf {κ M W O' A K Θ P O : Type} (lib : OptimLib W O') (step : W)
    (c : NumpyroCalls κ M O' A K Θ P O) : Numpyro κ (EngineSettings M W) A K Θ P O where
  prngKey := c.prngKey
  svi := fun k g a => do
    let o ← chooseOptimizer lib step g.optimizerName g.optimizerKwargs
    c.svi k g.model o g.optimizerSteps a
  samplePosterior := fun k g θ a => c.samplePosterior k g.model θ a
  nuts := fun k g a => c.nuts k g.model g.mcmcSamples g.mcmcWarmup g.mcmcChains a
  predictiveGuide := fun k g θ a => c.predictiveGuide k g.model θ a
  predictiveSamples := fun k g p a => c.predictiveSamples k g.model p g.mcmcSamples a

end PV
