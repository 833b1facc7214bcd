import Verif.Model.Config

/-!
# Inference engines (`engine.py`)

numpyro and jax are one record of functions (`Numpyro`): running SVI, sampling the guide, NUTS
and `Predictive` are deterministic functions of the random key, the settings of the engine and
the arguments of the model.
-/

namespace PV

/-- Result of `SVI.run` with the guide it was run on: parameters and losses (`none`: NaN).
(`engine.py` 130-145.) -/
structure SviRun (K Θ : Type) where
  params : Θ
  losses : List (Option K)

/-- numpyro and jax.  `κ`: random keys; `G`: model function and settings (steps, optimizer, numbers
of samples, warmup and chains); `A`: arguments of the model; `Θ`: parameters of the guide; `P`:
posterior samples; `O`: draws by site. (`engine.py` 130-136, 149-151, 190-197, 280-287, 315-319.) -/
structure Numpyro (κ G A K Θ P O : Type) where
  prngKey : Nat → κ
  svi : κ → G → A → PyM (SviRun K Θ)
  samplePosterior : κ → G → Θ → A → PyM P
  nuts : κ → G → A → PyM P
  predictiveGuide : κ → G → Θ → A → PyM O
  predictiveSamples : κ → G → P → A → PyM O

/-- An engine object.  Attributes that do not exist yet are `none`.
(`engine.py` 97-110, 130-152, 240-253, 289-299.) -/
structure Engine (κ G K Θ P O : Type) where
  kind : EngineKind
  rngKey : κ
  settings : G
  runResults : Option (SviRun K Θ)
  posterior : Option P
  samplesPredictive : Option O

section
variable {κ G A K Θ P O : Type}

/-- `InferenceEngine.__init__` (`engine.py` 39-43). -/
def Engine.new (np : Numpyro κ G A K Θ P O) (kind : EngineKind) (g : G) (key : Option κ) :
    Engine κ G K Θ P O :=
  { kind := kind, rngKey := key.getD (np.prngKey 0), settings := g, runResults := none,
    posterior := none, samplesPredictive := none }

/-- `raise_error_if_nan_loss` (`engine.py` 154-174).  Indexing an empty array (no step was made)
is an `IndexError`. -/
def raiseIfNanLoss (r : SviRun K Θ) : PyM Unit :=
  match r.losses.getLast? with
  | none => .error .indexError
  | some none => .error .mapInferenceEngineError
  | some (some _) => .ok ()

/-- `MAPInferenceEngine.infer` (`engine.py` 116-152).  The second component is the state of the
engine afterwards, also when an exception is raised. -/
def Engine.inferMap (np : Numpyro κ G A K Θ P O) (e : Engine κ G K Θ P O) (a : A) :
    PyM Unit × Engine κ G K Θ P O :=
  match np.svi e.rngKey e.settings a with
  | .error err => (.error err, e)
  | .ok r =>
    let e := { e with runResults := some r }
    match raiseIfNanLoss r with
    | .error err => (.error err, e)
    | .ok () =>
      match np.samplePosterior e.rngKey e.settings r.params a with
      | .error err => (.error err, e)
      | .ok p => (.ok (), { e with posterior := some p })

/-- `MCMCInferenceEngine.infer` (`engine.py` 255-299). -/
def Engine.inferMcmc (np : Numpyro κ G A K Θ P O) (e : Engine κ G K Θ P O) (a : A) :
    PyM Unit × Engine κ G K Θ P O :=
  match np.nuts e.rngKey e.settings a with
  | .error err => (.error err, e)
  | .ok p => (.ok (), { e with posterior := some p })

/-- `inference_engine_.infer`. (`engine.py` 116-152, 255-299; `sktime/base.py` 269.) -/
def Engine.infer (np : Numpyro κ G A K Θ P O) (e : Engine κ G K Θ P O) (a : A) :
    PyM Unit × Engine κ G K Θ P O :=
  match e.kind with
  | .map => e.inferMap np a
  | .mcmc => e.inferMcmc np a

/-- The draws computed by `predict` (`engine.py` 176-198, 301-320): with the optimised parameters
for MAP, with the posterior samples for MCMC.  A missing attribute is an `AttributeError`. -/
def Engine.draws (np : Numpyro κ G A K Θ P O) (e : Engine κ G K Θ P O) (a : A) : PyM O :=
  match e.kind with
  | .map =>
    match e.runResults with
    | none => .error .attributeError
    | some r => np.predictiveGuide e.rngKey e.settings r.params a
  | .mcmc =>
    match e.posterior with
    | none => .error .attributeError
    | some p => np.predictiveSamples e.rngKey e.settings p a

/-- `inference_engine_.predict`: the draws are also stored, by MCMC in the engine
(`engine.py` 319), by MAP in the global `numpyro.samples_` (`engine.py` 197), given here as the
last component. -/
def Engine.predict (np : Numpyro κ G A K Θ P O) (e : Engine κ G K Θ P O) (a : A)
    (global : Option O) : PyM O × Engine κ G K Θ P O × Option O :=
  match e.draws np a with
  | .error err => (.error err, e, global)
  | .ok o =>
    match e.kind with
    | .map => (.ok o, e, some o)
    | .mcmc => (.ok o, { e with samplesPredictive := some o }, global)

end
end PV
