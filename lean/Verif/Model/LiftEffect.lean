import Verif.Model.AnyEffect
import Verif.Model.Lift

/-!
# Lift experiments among the effects of a forecaster

`LiftExperimentLikelihood` (`effects/lift_experiment.py`) as one of the effect classes, so that it can
be listed in `exogenous_effects` (`sktime/base.py` 891-1010) next to effects of other classes.
-/

namespace PV
section
variable {S Y τ V D K : Type}

/-- What `fit` changes in the wrapper besides the attributes of `BaseEffect`: the wrapped effect and
`timeseries_scale` (`effects/lift_experiment.py` 77-78). -/
structure LiftAttrs (S K : Type) where
  inner : BaseState × S
  tsScale : Option K

/-- The wrapper with the given attributes. (`effects/lift_experiment.py` 77-79.) -/
def Lift.at (l : Lift S Y τ V D K) (b : BaseState) (s : LiftAttrs S K) : Lift S Y τ V D K :=
  { l with inner := { l.inner with st := s.inner }, base := b, tsScale := s.tsScale }

/-- The class (`effects/lift_experiment.py` 16-148) with the constructor arguments of `l`.  `fit` is
overridden there, and calls that of the base class after that of the wrapped effect; here the check
of the base class comes first, which can only change the error.  Without data the key
`"observed_lift"` is missing (129). -/
def liftClass [DecidableEq τ] [Zero K] [Div K] (l : Lift S Y τ V D K) :
    EffectClass (LiftAttrs S K) Y K τ V (LiftData D K) K where
  tags := liftTags
  fit := fun s y X scale => do
    let inner ← EffectObj.fit { l.inner with st := s.inner } y X scale
    pure ⟨inner.st, some scale⟩
  transform := fun s x fh => (l.at .init s).hookTransform x fh
  call := fun st θ d p =>
    match d with
    | .emptyDict => .error .keyError
    | .data d => ((l.at st.1 st.2).predict θ d p).map Prod.fst

/-- The wrapper as an effect object; `clone` clones the wrapped effect.
(`effects/lift_experiment.py` 36-49; `sktime/base.py` 916.) -/
def Lift.obj [DecidableEq τ] [Zero K] [Div K] (l : Lift S Y τ V D K) :
    EffectObj (LiftAttrs S K) Y K τ V (LiftData D K) K :=
  ⟨liftClass l, (.init, ⟨l.inner.made, none⟩), (l.base, ⟨l.inner.st, l.tsScale⟩)⟩

end

section
variable {S Y τ V D K : Type}

/-- The effect given a `float` as scale. (`sktime/base.py` 918-920 with the scale of `sktime/base.py` 471.) -/
def EffectObj.onFloat (e : EffectObj S Y (Scale K) τ V D K) : EffectObj S Y K τ V D K where
  cls := { tags := e.cls.tags, fit := fun s y X k => e.cls.fit s y X (.float k), transform := e.cls.transform,
           call := e.cls.call }
  made := e.made
  st := e.st

/-- An effect that is only used with numbers as scale, as is the case for effects of univariate
forecasters (`sktime/base.py` 415-446); an `int` is used as a number. -/
def EffectObj.ofFloat [IntCast K] (e : EffectObj S Y K τ V D K) : EffectObj S Y (Scale K) τ V D K where
  cls := { tags := e.cls.tags
           fit := fun s y X sc =>
             match sc with
             | .float k => e.cls.fit s y X k
             | .int n => e.cls.fit s y X n
             | .table _ => .error .typeError
           transform := e.cls.transform, call := e.cls.call }
  made := e.made
  st := e.st

end

/-- Attributes and data of plain effects among those of plain effects and lift experiments.
No code of its own; see `Emb` and `sktime/base.py` 827. -/
def plainEmb {A B : Type} : Emb A (A ⊕ B) := ⟨.inl, Sum.getLeft?, fun _ => rfl⟩

/-- Attributes and data of lift experiments among those of plain effects and lift experiments.
No code of its own; see `Emb` and `sktime/base.py` 827. -/
def liftEmb {A B : Type} : Emb B (A ⊕ B) := ⟨.inr, Sum.getRight?, fun _ => rfl⟩

/-- The arguments of `LiftExperimentLikelihood` besides the wrapped effect.
(`effects/lift_experiment.py` 39-40.) -/
structure LiftTest (τ : Type) where
  table : Frame String τ (Option ℝ)
  priorScale : ℝ

section
variable {S Y τ V D : Type} [DecidableEq τ]

/-- `LiftExperimentLikelihood(e, lift_test_results=t.table, prior_scale=t.priorScale)`
(`effects/lift_experiment.py` 36-49), as constructed. -/
def LiftTest.lift (t : LiftTest τ) (e : EffectObj S Y ℝ τ V D ℝ) : Lift S Y τ V D ℝ :=
  ⟨e, t.table, t.priorScale, .init, none⟩

/-- The effect called `n`: wrapped when there are lift tests for it.
The user does this in `exogenous_effects` (`sktime/base.py` 827; `effects/lift_experiment.py` 36-49). -/
noncomputable def wrapEffect (tests : String → Option (LiftTest τ)) (n : String)
    (e : EffectObj S Y (Scale ℝ) τ V D ℝ) :
    EffectObj (S ⊕ LiftAttrs S ℝ) Y (Scale ℝ) τ V (D ⊕ LiftData D ℝ) ℝ :=
  match tests n with
  | none => e.embed plainEmb plainEmb
  | some t => (t.lift e.onFloat).obj.ofFloat.embed liftEmb liftEmb

/-- The forecaster of `cfg` with some of its `exogenous_effects` wrapped in lift experiments.
The user does this (`sktime/base.py` 827; `effects/lift_experiment.py` 36-49). -/
noncomputable def withTests (tests : String → Option (LiftTest τ)) (cfg : UniConfig S (Scale ℝ) τ V D ℝ) :
    UniConfig (S ⊕ LiftAttrs S ℝ) (Scale ℝ) τ V (D ⊕ LiftData D ℝ) ℝ where
  compile := cfg.compile
  trend := cfg.trend.embed plainEmb plainEmb
  effects := cfg.effects.map fun e => ⟨e.name, wrapEffect tests e.name e.effect, e.regex⟩
  default := cfg.default.embed plainEmb plainEmb
  fitFeatures := cfg.fitFeatures
  features := cfg.features
  discrete := cfg.discrete
  unitScale := cfg.unitScale
  effectScale := cfg.effectScale
  scale := cfg.scale

/-- The statements of a fitted wrapper (`effects/lift_experiment.py` 131-141). -/
noncomputable def liftPriors (l : Lift S Y τ V D ℝ) (pr : Priors (Transformed D)) :
    Priors (Transformed (LiftData D ℝ)) := fun θ d p =>
  match d with
  | .emptyDict => .error .keyError
  | .data d => l.priors pr θ d p

/-- The log density of a fitted univariate model (`models.py` 89-207), with the statements `tp` of
its trend and `pr n` of its effect called `n`. -/
noncomputable def fitDensity {S τ V D : Type} (tp : Priors (Transformed D)) (pr : String → Priors (Transformed D))
    (lik : Likelihood) (ns scale : ℝ) (m : UniFit S (Scale ℝ) τ V D ℝ) (θ : SiteEnv ℝ) : PyM ℝ :=
  logJoint lik ns scale m.yArray (m.trend.cls.call m.trend.st) tp m.trendData m.data (callsOf m.objs) pr θ

/-- The statements of the effects of the forecaster `withTests tests cfg`, whose fit left `objs`.
(`effects/lift_experiment.py` 111-143, `models.py` 259-262.) -/
noncomputable def testPriors (tests : String → Option (LiftTest τ)) (cfg : UniConfig S (Scale ℝ) τ V D ℝ)
    (pr : String → Priors (Transformed D))
    (objs : PyDict (EffectObj (S ⊕ LiftAttrs S ℝ) Y (Scale ℝ) τ V (D ⊕ LiftData D ℝ) ℝ)) (n : String) :
    Priors (Transformed (D ⊕ LiftData D ℝ)) :=
  match tests n, cfg.effects.find? (fun e => e.name = n), (objs.get? n).map EffectObj.st with
  | some t, some e, some (b, .inr s) => (liftPriors ((t.lift e.effect.onFloat).at b s) (pr n)).embed liftEmb
  | _, _, _ => (pr n).embed plainEmb

end
end PV
