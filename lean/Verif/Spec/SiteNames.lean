import Verif.Model.Trace

/-!
# Which site names a user expects

The types of trends, effects and likelihoods, as a user picks them, and the unknowns that each of
them brings.  Written from the documentation, without reference to the sites announced by the
code.
-/

namespace PV

/-- The trends. -/
inductive TrendType where
  | linear
  | logistic
  | flat
  deriving DecidableEq, Repr

/-- The effects that are not wrappers. -/
inductive PlainEffect where
  | linear
  | fourier
  | log
  | hill
  deriving DecidableEq, Repr

/-- The effects: `lift e` adds lift experiments to `e`. -/
inductive EffectType where
  | plain (e : PlainEffect)
  | lift (e : PlainEffect)
  deriving DecidableEq, Repr

/-- The forecasters: one series, or a hierarchy with one or more bottom series. -/
inductive ModelType where
  | univariate
  | hierarchical (single : Bool)
  deriving DecidableEq, Repr

/-- The unknowns of a trend. -/
def TrendType.params : TrendType → List String
  | .linear => ["offset", "changepoint_coefficients"]
  | .logistic => ["capacity", "offset", "changepoint_coefficients"]
  | .flat => ["trend_flat_coefficient"]

/-- The unknowns of an effect. -/
def PlainEffect.params : PlainEffect → List String
  | .linear | .fourier => ["coefs"]
  | .log => ["log_scale", "log_rate"]
  | .hill => ["half_max", "slope", "max_effect"]

/-- The unknowns of an effect; lift experiments add data, not unknowns. -/
def EffectType.params : EffectType → List String
  | .plain e | .lift e => e.params

/-- The unknowns of the likelihood. -/
def ModelType.params : ModelType → List String
  | .univariate => ["noise_scale"]
  | .hierarchical true => ["std_observation"]
  | .hierarchical false => ["std_observation", "corr_matrix"]

/-- Names that no effect may have. -/
def reservedNames (t : TrendType) (m : ModelType) : List String :=
  t.params ++ (if t = .logistic then ["series"] else []) ++ "trend" :: "obs" ::
    (m.params ++ [if m = .univariate then "data" else "time"])

/-- All unknowns: those of the trend, those of the effects, marked with the name of the effect,
and those of the likelihood. -/
def expectedParams (t : TrendType) (effects : List (String × EffectType)) (m : ModelType) :
    List String :=
  t.params ++ (effects.flatMap fun e => e.2.params.map fun p => e.1 ++ "/" ++ p) ++ m.params

/-- No `/` in a name. -/
def NoSlash (s : String) : Prop := '/' ∉ s.toList

instance (s : String) : Decidable (NoSlash s) := inferInstanceAs (Decidable (¬ _))

end PV
