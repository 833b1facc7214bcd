import Mathlib.Tactic.NormNum
import Verif.Model.EngineSettings
import Verif.Model.Introspect
import Verif.Props.Config
import Verif.Props.World

/-!
# C81, C82, C83: the named forecasters, the optimizer, looking at a fitted model
-/

namespace PV

/-! ## C81 -/

section
variable {K E T W C : Type} [Field K]

/-- Specification: the class with its likelihood, as documented. -/
inductive NamedForecaster : String → (UniArgs K E T W C → UniObject K E T W C) → Prop where
  | prophet : NamedForecaster "normal" prophetInit
  | gamma : NamedForecaster "gamma" prophetGammaInit
  | negbinomial : NamedForecaster "negbinomial" prophetNegBinomialInit

/-- **C81.** `Prophet`, `ProphetGamma` and `ProphetNegBinomial` are `Prophetverse` with the
likelihood of their name, for all arguments with a trend. -/
theorem C81_named_partial {l : String} {init : UniArgs K E T W C → UniObject K E T W C}
    (h : NamedForecaster l init) {a : UniArgs K E T W C} (ht : a.trend ≠ none) :
    init a = prophetverseInit a (some l) := by
  obtain ⟨t, ht⟩ := Option.ne_none_iff_exists'.1 ht
  cases h <;>
    simp [prophetInit, prophetGammaInit, prophetNegBinomialInit, subclassInit, prophetverseInit, ht]

/-- **C81**, no trend given: everything else is still the same, the trend is `"logistic"`. -/
theorem C81_no_trend {l : String} {init : UniArgs K E T W C → UniObject K E T W C}
    (h : NamedForecaster l init) {a : UniArgs K E T W C} (ht : a.trend = none) :
    init a = prophetverseInit { a with trend := some (.name "logistic") } (some l) := by
  cases h <;>
    simp [prophetInit, prophetGammaInit, prophetNegBinomialInit, subclassInit, prophetverseInit, ht]

/-- **C81 is false without a trend.**  The three classes document `"linear"` as the default of
`trend`, as `Prophetverse` does; they use `"logistic"`. -/
theorem C81_default_trend_refuted {l : String}
    {init : UniArgs K E T W C → UniObject K E T W C} (h : NamedForecaster l init) :
    (init {}).trend ≠ .name "linear" ∧ init {} ≠ prophetverseInit {} (some l) := by
  have h1 : (init {}).trend ≠ .name "linear" := by
    rw [C81_no_trend h rfl]
    simp [prophetverseInit]
  refine ⟨h1, fun hc => h1 ?_⟩
  rw [hc]
  rfl

/-- Specification: the documented defaults (`sktime/univariate.py` 53-131). -/
def documentedDefaults : UniArgs K E T W C :=
  { trend := some (.name "linear"), interval := some (.scalar 25), range := some (.scalar (8 / 10)),
    priorScale := some (.scalar (1 / 1000)), offsetPriorScale := some (1 / 10),
    capacityPriorScale := some (2 / 10), capacityPriorLoc := some (11 / 10),
    featureTransformer := some none, noiseScale := some (5 / 100), mcmcSamples := some 2000,
    mcmcWarmup := some 200, mcmcChains := some 4, inferenceMethod := some "map",
    optimizerName := some (some "Adam"), optimizerSteps := some 100000,
    exogenousEffects := some none, defaultEffect := some none, scale := some none,
    rngKey := some none }

/-- An argument list with the gaps filled from another one. -/
def UniArgs.orElse (a b : UniArgs K E T W C) : UniArgs K E T W C :=
  { trend := a.trend <|> b.trend, interval := a.interval <|> b.interval,
    range := a.range <|> b.range, priorScale := a.priorScale <|> b.priorScale,
    offsetPriorScale := a.offsetPriorScale <|> b.offsetPriorScale,
    capacityPriorScale := a.capacityPriorScale <|> b.capacityPriorScale,
    capacityPriorLoc := a.capacityPriorLoc <|> b.capacityPriorLoc,
    exogenousEffects := a.exogenousEffects <|> b.exogenousEffects,
    defaultEffect := a.defaultEffect <|> b.defaultEffect,
    featureTransformer := a.featureTransformer <|> b.featureTransformer,
    noiseScale := a.noiseScale <|> b.noiseScale, mcmcSamples := a.mcmcSamples <|> b.mcmcSamples,
    mcmcWarmup := a.mcmcWarmup <|> b.mcmcWarmup, mcmcChains := a.mcmcChains <|> b.mcmcChains,
    inferenceMethod := a.inferenceMethod <|> b.inferenceMethod,
    optimizerName := a.optimizerName <|> b.optimizerName,
    optimizerKwargs := a.optimizerKwargs <|> b.optimizerKwargs,
    optimizerSteps := a.optimizerSteps <|> b.optimizerSteps, scale := a.scale <|> b.scale,
    rngKey := a.rngKey <|> b.rngKey }

theorem getD_orElse {α : Type} (o : Option α) (d d' : α) :
    (o <|> some d).getD d' = o.getD d := by
  cases o <;> rfl

/-- **C81**: leaving out an argument of `Prophetverse` is the same as passing the documented
default. -/
theorem C81_defaults (a : UniArgs K E T W C) :
    prophetverseInit a none = prophetverseInit (a.orElse documentedDefaults) (some "normal") := by
  simp only [prophetverseInit, UniArgs.orElse, documentedDefaults, getD_orElse]
  cases a.optimizerKwargs <;> simp

end

section
variable {K E T W C : Type} [Field K] [LinearOrder K] [IsStrictOrderedRing K]

/-- **C81**: every class can be constructed without arguments. -/
theorem C81_constructible {l : String} {init : UniArgs K E T W C → UniObject K E T W C}
    (h : NamedForecaster l init) :
    construct (init {}).config = .ok () ∧
      construct (prophetverseInit ({} : UniArgs K E T W C) none).config = .ok () := by
  constructor
  · refine (C59_constructor (i := 25) (p := 1 / 1000) ?_ ?_).2.2 ?_
    · cases h <;> rfl
    · cases h <;> rfl
    · cases h <;> simp [Invalid, KnownTrend, UniObject.config,
        prophetInit, prophetGammaInit, prophetNegBinomialInit, subclassInit, prophetverseInit]
  · refine (C59_constructor (i := 25) (p := 1 / 1000) rfl rfl).2.2 ?_
    simp [Invalid, KnownTrend, UniObject.config, prophetverseInit]

/-- Specification: the distribution a likelihood stands for. -/
inductive Named : String → Likelihood → Prop where
  | normal : Named "normal" .normal
  | gamma : Named "gamma" .gamma
  | negbinomial : Named "negbinomial" .negbinomial

/-- **C81**: the likelihood that is asked for is the one that is used, whatever the other arguments;
one that does not exist is rejected by the constructor. -/
theorem C81_likelihood (a : UniArgs K E T W C) (l : String) (m : Likelihood) :
    (modelFn (prophetverseInit a (some l)).config = .ok (.univariate m) ↔ Named l m) ∧
    (∀ init : UniArgs K E T W C → UniObject K E T W C, NamedForecaster l init →
      (modelFn (init a).config = .ok (.univariate m) ↔ Named l m)) ∧
    (construct (prophetverseInit ({} : UniArgs K E T W C) (some l)).config = .error .valueError ↔
      ¬ ∃ m, Named l m) := by
  have hn : ∀ {l : String} {m : Likelihood}, ((l = "normal" ∧ m = .normal) ∨
      (l = "gamma" ∧ m = .gamma) ∨ (l = "negbinomial" ∧ m = .negbinomial)) ↔ Named l m := by
    intro l m
    constructor
    · rintro (⟨rfl, rfl⟩ | ⟨rfl, rfl⟩ | ⟨rfl, rfl⟩) <;> constructor
    · rintro (_ | _ | _) <;> simp
  refine ⟨?_, ?_, ?_⟩
  · rw [C60_likelihood_table rfl]
    exact hn
  · intro init h
    rw [C60_likelihood_table (by cases h <;> rfl)]
    cases h <;> exact hn
  · rw [(C59_constructor (i := 25) (p := 1 / 1000) rfl rfl).1]
    have hex : (∃ m, Named l m) ↔ (l = "normal" ∨ l = "gamma" ∨ l = "negbinomial") := by
      constructor
      · rintro ⟨m, hm⟩
        cases hm <;> simp
      · rintro (rfl | rfl | rfl)
        exacts [⟨_, .normal⟩, ⟨_, .gamma⟩, ⟨_, .negbinomial⟩]
    have h1 : ¬ (25 : K) ≤ 0 := by norm_num
    have h2 : ¬ (1000 : K) ≤ 0 := by norm_num
    have h3 : ¬ (2 / 10 : K) ≤ 0 := by norm_num
    have h4 : ¬ (11 / 10 : K) ≤ 0 := by norm_num
    have h5 : ¬ (10 : K) ≤ 0 := by norm_num
    have h6 : ¬ (5 / 100 : K) ≤ 0 := by norm_num
    rw [hex]
    simp [Invalid, KnownTrend, UniObject.config, prophetverseInit, h1, h2, h3, h4, h5, h6]

end

/-- An argument list with a trend. -/
example : ({ trend := some (.name "flat"), noiseScale := some (1 / 2) } :
    UniArgs ℚ Unit Unit Unit Unit).trend ≠ none := by simp

example : NamedForecaster (K := ℚ) (E := Unit) (T := Unit) (W := Unit) (C := Unit) "gamma"
    prophetGammaInit := .gamma

/-! ## C82 -/

section
variable {W O : Type}

/-- Specification: the name refers to `numpyro.optim`. -/
def InNumpyro (name : String) : Prop := ¬ "optax".toList <+: name.toList

/-- **C82.** A name that refers to `numpyro.optim` gives that optimizer, with the given keyword
arguments or else with step size `1e-4`; no name is `"Adam"`; an unknown name is an
`AttributeError`. -/
theorem C82_named_partial (lib : OptimLib W O) (step : W) {name : String} (hn : InNumpyro name)
    (kwargs : Option (PyDict W)) :
    (∀ f, lib.optimizer name = some f → chooseOptimizer lib step (some name) kwargs
        = match kwargs with
          | some kw => f kw
          | none => f [("step_size", step)]) ∧
    (lib.optimizer name = none →
      chooseOptimizer lib step (some name) kwargs = .error .attributeError) ∧
    chooseOptimizer lib step none kwargs = chooseOptimizer lib step (some "Adam") kwargs := by
  have hp : ("optax".toList.isPrefixOf name.toList) = false := by
    cases h : "optax".toList.isPrefixOf name.toList with
    | false => rfl
    | true => exact absurd (List.isPrefixOf_iff_prefix.1 h) hn
  refine ⟨fun f hf => ?_, fun hf => ?_, rfl⟩
  · simp only [chooseOptimizer, Option.getD_some, hp, hf]
    cases kwargs <;> rfl
  · simp only [chooseOptimizer, Option.getD_some, hp, hf]
    rfl

/-- **C82 is false of names that begin with `optax`.**  They all give the same optimizer, Adam with a
cosine schedule, whatever the rest of the name says. -/
theorem C82_optax_refuted (lib : OptimLib W O) (step : W) (kwargs : Option (PyDict W)) :
    chooseOptimizer lib step (some "optax.sgd") kwargs
      = chooseOptimizer lib step (some "optax.adagrad") kwargs ∧
    ∀ rest rest', chooseOptimizer lib step (some ("optax" ++ rest)) kwargs
      = chooseOptimizer lib step (some ("optax" ++ rest')) kwargs := by
  have key : ∀ rest rest', chooseOptimizer lib step (some ("optax" ++ rest)) kwargs
      = chooseOptimizer lib step (some ("optax" ++ rest')) kwargs := by
    intro rest rest'
    have h : ∀ r : String, ("optax".toList.isPrefixOf ("optax" ++ r).toList) = true := by
      intro r
      rw [String.toList_append]
      exact List.isPrefixOf_iff_prefix.2 (List.prefix_append _ _)
    simp only [chooseOptimizer, Option.getD_some, h, if_true]
  exact ⟨key ".sgd" ".adagrad", key⟩

/-- Specification: arguments `optax.cosine_decay_schedule` can be called with. -/
def ScheduleArguments (kw : PyDict W) : Prop :=
  (∀ p ∈ kw, p.1 = "init_value" ∨ p.1 = "decay_steps" ∨ p.1 = "alpha" ∨ p.1 = "exponent") ∧
  (∃ p ∈ kw, p.1 = "init_value") ∧ ∃ p ∈ kw, p.1 = "decay_steps"

open Classical in
/-- **C82**, `optax`: with keyword arguments of the schedule the optimizer is Adam on that schedule,
with others, or without, it is a `TypeError`. -/
theorem C82_optax_arguments (lib : OptimLib W O) (step : W) (rest : String) (kw : PyDict W) :
    (ScheduleArguments kw → chooseOptimizer lib step (some ("optax" ++ rest)) (some kw)
      = lib.cosineAdam kw) ∧
    (¬ ScheduleArguments kw → chooseOptimizer lib step (some ("optax" ++ rest)) (some kw)
      = .error .typeError) ∧
    chooseOptimizer lib step (some ("optax" ++ rest)) none = .error .typeError := by
  have h : ("optax".toList.isPrefixOf ("optax" ++ rest).toList) = true := by
    rw [String.toList_append]
    exact List.isPrefixOf_iff_prefix.2 (List.prefix_append _ _)
  have hc : ∀ kw : PyDict W, cosineCheck kw
      = if ScheduleArguments kw then .ok () else .error .typeError := by
    intro kw
    have : ((∀ k ∈ PyDict.keys kw, k ∈ cosineParams) ∧ "init_value" ∈ PyDict.keys kw ∧
        "decay_steps" ∈ PyDict.keys kw) ↔ ScheduleArguments kw := by
      simp [ScheduleArguments, PyDict.keys, cosineParams, List.mem_map]
    unfold cosineCheck
    by_cases hs : ScheduleArguments kw
    · rw [if_pos (this.2 hs), if_pos hs]
    · rw [if_neg (fun h => hs (this.1 h)), if_neg hs]
  simp only [chooseOptimizer, Option.getD_some, Option.getD_none, h, if_true, hc]
  refine ⟨fun hs => ?_, fun hs => ?_, ?_⟩
  · rw [if_pos hs]; rfl
  · rw [if_neg hs]; rfl
  · rw [if_neg]
    · rfl
    · rintro ⟨-, ⟨p, hp, he⟩, -⟩
      simp only [List.mem_singleton] at hp
      subst hp
      simp at he

end

section
variable {S τ D K F κ M W O' Θ P : Type} [Field K] [LinearOrder K] [FloorRing K] [LinearOrder τ]

/-- Settings that an inference method may look at. -/
def SameFor (method : String) (g g' : EngineSettings M W) : Prop :=
  g.model = g'.model ∧
  (method = "map" → g.optimizerName = g'.optimizerName ∧ g.optimizerKwargs = g'.optimizerKwargs ∧
    g.optimizerSteps = g'.optimizerSteps) ∧
  (method = "mcmc" → g.mcmcSamples = g'.mcmcSamples ∧ g.mcmcWarmup = g'.mcmcWarmup ∧
    g.mcmcChains = g'.mcmcChains)

/-- **C82**: the optimizer settings matter for `"map"` only and the MCMC settings for `"mcmc"` only:
two forecasters that differ in the others have the same outcome of `fit` and the same predictions. -/
theorem C82_other_settings (lib : OptimLib W O') (step : W)
    (nc : NumpyroCalls κ M O' (ModelArgs D K) K Θ P (Draws K)) {H : Type}
    (horizon : List τ → H → List τ)
    {w w' : World S τ D K F κ (EngineSettings M W) Θ P} {i i' : Nat}
    {fc fc' : Fc S τ D K κ (EngineSettings M W) Θ P} (hi : w.fcs[i]? = some fc)
    (hi' : w'.fcs[i']? = some fc') {c : Contents S τ D K F κ (EngineSettings M W)}
    (hc : Resolves w.heap w.feats fc.cfg c) {g : EngineSettings M W}
    (hc' : Resolves w'.heap w'.feats fc'.cfg { c with settings := g })
    (hg : SameFor c.method c.settings g) (y : Frame String τ K) (X : Option (Frame String τ K)) :
    let np := numpyroOf lib step nc
    (w.fit np i y X).1 = (w'.fit np i' y X).1 ∧
      ∀ q X' fh, ((w.fit np i y X).2.predict np horizon i q X' fh).1
        = ((w'.fit np i' y X).2.predict np horizon i' q X' fh).1 := by
  intro np
  obtain ⟨h1, h2⟩ := fit_predict_value np horizon hi hc y X
  obtain ⟨h3, h4⟩ := fit_predict_value np horizon hi' hc' y X
  have hprep : valPrepare { c with settings := g } y X = valPrepare c y X := rfl
  -- the engines agree up to their settings
  have hinf : ∀ a, (valInfer np c a).1 = (valInfer np { c with settings := g } a).1 ∧
      (valInfer np { c with settings := g } a).2
        = (valInfer np c a).2.map (fun e => { e with settings := g }) ∧
      ∀ e, (valInfer np c a).2 = some e → e.settings = c.settings ∧
        (selectEngine c.method = .ok e.kind) := by
    intro a
    unfold valInfer
    simp only
    cases hk : selectEngine c.method with
    | error e => exact ⟨rfl, rfl, fun e h => by cases h⟩
    | ok kind =>
      cases kind with
      | map =>
        have hm := (C60_engine c.method).2.1.1 hk
        obtain ⟨hm1, hm2, hm3⟩ := hg.2.1 hm
        simp only [Engine.infer, Engine.new, Engine.inferMap, Option.getD_some, np, numpyroOf, hm1,
          hm2, hm3, hg.1]
        cases (chooseOptimizer lib step g.optimizerName g.optimizerKwargs >>= fun o =>
            nc.svi (c.rngKey.getD (nc.prngKey 24)) g.model o g.optimizerSteps a) with
        | error e => exact ⟨rfl, rfl, fun e h => by cases h; exact ⟨rfl, rfl⟩⟩
        | ok r =>
          simp only
          cases raiseIfNanLoss r with
          | error e => exact ⟨rfl, rfl, fun e h => by cases h; exact ⟨rfl, rfl⟩⟩
          | ok u =>
            simp only
            cases nc.samplePosterior (c.rngKey.getD (nc.prngKey 24)) g.model r.params a with
            | error e => exact ⟨rfl, rfl, fun e h => by cases h; exact ⟨rfl, rfl⟩⟩
            | ok p => exact ⟨rfl, rfl, fun e h => by cases h; exact ⟨rfl, rfl⟩⟩
      | mcmc =>
        have hm := (C60_engine c.method).1.1 hk
        obtain ⟨hm1, hm2, hm3⟩ := hg.2.2 hm
        simp only [Engine.infer, Engine.new, Engine.inferMcmc, Option.getD_some, np, numpyroOf, hm1,
          hm2, hm3, hg.1]
        cases nc.nuts (c.rngKey.getD (nc.prngKey 24)) g.model g.mcmcSamples g.mcmcWarmup
            g.mcmcChains a with
        | error e => exact ⟨rfl, rfl, fun e h => by cases h; exact ⟨rfl, rfl⟩⟩
        | ok p => exact ⟨rfl, rfl, fun e h => by cases h; exact ⟨rfl, rfl⟩⟩
  have hfit : valFit np c y X = valFit np { c with settings := g } y X := by
    unfold valFit
    rw [hprep]
    cases valPrepare c y X with
    | error e => rfl
    | ok v => exact (hinf _).1
  refine ⟨by rw [h1, h3, hfit], fun q X' fh => ?_⟩
  rw [h2, h4]
  unfold valPredict
  rw [hprep, hfit]
  split
  · rfl
  · cases valPrepare c y X with
    | error e => rfl
    | ok v =>
      obtain ⟨-, e2, e3⟩ := hinf v.fitArgs
      simp only [e2]
      cases he : (valInfer np c v.fitArgs).2 with
      | none => rfl
      | some eng =>
        obtain ⟨e4, e5⟩ := e3 eng he
        have hd : ∀ a, eng.draws np a = ({ eng with settings := g } :
            Engine κ (EngineSettings M W) K Θ P (Draws K)).draws np a := by
          intro a
          unfold Engine.draws
          cases hk : eng.kind with
          | map => simp only [np, numpyroOf, e4, hg.1]
          | mcmc =>
            rw [hk] at e5
            have hm := (C60_engine c.method).1.1 e5
            simp only [np, numpyroOf, e4, hg.1, (hg.2.2 hm).1]
        simp only [Option.map_some, hd]

/-- **C82**: with `"map"`, an optimizer that cannot be made makes `fit` raise, once the data have
been prepared. -/
theorem C82_bad_optimizer (lib : OptimLib W O') (step : W)
    (nc : NumpyroCalls κ M O' (ModelArgs D K) K Θ P (Draws K))
    (e : Engine κ (EngineSettings M W) K Θ P (Draws K)) (hk : e.kind = .map) {err : PyErr}
    (ho : chooseOptimizer lib step e.settings.optimizerName e.settings.optimizerKwargs
      = .error err) (a : ModelArgs D K) :
    e.infer (numpyroOf lib step nc) a = (.error err, e) := by
  simp [Engine.infer, hk, Engine.inferMap, numpyroOf, ho, bind, Except.bind]

end

/-- A library with Adam and SGD; an optimizer is its name with its step size. -/
def exOptimLib : OptimLib ℚ (String × ℚ) :=
  { optimizer := fun n => if n = "Adam" ∨ n = "SGD" then
      some fun kw => (PyDict.getItem kw "step_size").map fun s => (n, s) else none
    cosineAdam := fun kw => (PyDict.getItem kw "init_value").map fun s => ("cosine", s) }

example : ScheduleArguments [("init_value", (1 : ℚ)), ("decay_steps", 2)] := by
  simp [ScheduleArguments]

example : InNumpyro "SGD" := by unfold InNumpyro; decide

example : (chooseOptimizer exOptimLib (1 / 10000) (some "SGD") none).toOption
      = some ("SGD", 1 / 10000) ∧
    (chooseOptimizer exOptimLib (1 / 10000) none (some [("step_size", 1 / 2)])).toOption
      = some ("Adam", 1 / 2) ∧
    (chooseOptimizer exOptimLib (1 / 10000) (some "optax.sgd")
      (some [("init_value", 1), ("decay_steps", 2)])).toOption = some ("cosine", 1) := by
  decide +kernel

example : SameFor "mcmc" (⟨(), some "Adam", none, 5, 1, 2, 3⟩ : EngineSettings Unit ℚ)
    ⟨(), some "nonsense", none, 7, 1, 2, 3⟩ := by simp [SameFor]

/-! ## C83 -/

/-- **C83 is false**: `var_names` is empty for every fitted forecaster, whatever its model
contains. -/
theorem C83_var_names_refuted (kind : ForecasterKind) (value : String → List String) :
    varNames kind value = [] := by
  cases kind <;> simp [varNames, fitDataKeys]

/-- **C83 is false**: `plot_trace` raises `AttributeError` after every fit, also after MCMC and after
predictions. -/
theorem C83_plot_trace_refuted {F : Type} (k : EngineKind) (plot : F) :
    plotTrace (engineAttributes k) plot = .error .attributeError ∧
    plotTrace (engineAttributesPredicted k) plot = .error .attributeError := by
  cases k <;> simp [plotTrace, engineAttributes, engineAttributesPredicted]

/-- **C83**, what works: `site_names` names the sites of the posterior. -/
theorem C83_site_names_partial {α : Type} (posterior : PyDict α) (s : String) :
    s ∈ siteNames posterior ↔ ∃ v, (s, v) ∈ posterior := by
  simp [siteNames, PyDict.keys]

end PV
