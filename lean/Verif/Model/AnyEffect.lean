import Verif.Model.Density
import Verif.Model.FourierFeatures
import Verif.Model.UnivariateData

/-!
# Effects of different classes in one forecaster

The `effects` of a forecaster (`sktime/base.py` 818-889) are objects of different classes,
with different attributes (set in `_fit`: `effects/trend/piecewise.py` 78-105, `effects/fourier.py`
60-94, none in `effects/linear.py`) and different data (returned by `_transform`).  Here one type
holds the attributes of all classes and one type the data; every class reads its own.
-/

namespace PV

/-- A type as a part of a larger one.
Needed because `exogenous_effects` (`sktime/base.py` 827, 850) lists objects of several classes; no code
of its own. -/
structure Emb (A B : Type) where
  inj : A → B
  proj : B → Option A
  proj_inj : ∀ a, proj (inj a) = some a

/-- Data of `transform` inside a larger type of data.
No code of its own; the data is that of `effects/base.py` 176-221. -/
def Transformed.inj {D D' : Type} (ed : Emb D D') : Transformed D → Transformed D'
  | .emptyDict => .emptyDict
  | .data d => .data (ed.inj d)

/-- Reading it back. No code of its own; the data is that of `effects/base.py` 176-221. -/
def Transformed.proj {D D' : Type} (ed : Emb D D') : Transformed D' → Option (Transformed D)
  | .emptyDict => some .emptyDict
  | .data d => (ed.proj d).map .data

section
variable {S S' Y Sc τ V D D' K : Type}

/-- The same class, with attributes and data inside larger types.  Attributes of another class are
never seen; data of another effect is a `TypeError`. The methods are those of `effects/base.py` 109-221. -/
def EffectClass.embed (c : EffectClass S Y Sc τ V D K) (es : Emb S S') (ed : Emb D D') :
    EffectClass S' Y Sc τ V D' K where
  tags := c.tags
  fit := fun s y X sc =>
    match es.proj s with
    | none => .error .attributeError
    | some s => (c.fit s y X sc).map es.inj
  transform := fun s x fh =>
    match es.proj s with
    | none => .error .attributeError
    | some s => (c.transform s x fh).map ed.inj
  call := fun st θ d p =>
    match es.proj st.2, d.proj ed with
    | some s, some d => c.call (st.1, s) θ d p
    | _, _ => .error .typeError

/-- The same object, with attributes and data inside larger types.
The object is an entry of `exogenous_effects` (`sktime/base.py` 827, 850). -/
def EffectObj.embed (e : EffectObj S Y Sc τ V D K) (es : Emb S S') (ed : Emb D D') :
    EffectObj S' Y Sc τ V D' K :=
  ⟨e.cls.embed es ed, (e.made.1, es.inj e.made.2), (e.st.1, es.inj e.st.2)⟩

/-- The same statements, with data inside a larger type.
The statements are those of `_predict`, reached through `effects/base.py` 253-310. -/
def Priors.embed (pr : Priors (Transformed D)) (ed : Emb D D') : Priors (Transformed D') :=
  fun θ d p =>
    match d.proj ed with
    | some d => pr θ d p
    | none => .error .typeError

end

/-- Statements of `LinearFourierSeasonality._predict` (`effects/fourier.py` 127-151): those of its
linear effect, with the prior `Normal(0, prior_scale)` (91-93). -/
noncomputable def fourierPriors (priorScale : ℝ) : Priors (Transformed (Transformed (Tensor ℝ))) :=
  fun θ d p =>
    match d with
    | .data d => linearPriors (normalLP 0 priorScale) θ d p
    | .emptyDict => .error .attributeError

/-- Attributes of the objects in a forecaster with a piecewise trend (`effects/trend/piecewise.py`),
linear effects (`effects/linear.py`) and seasonality (`effects/fourier.py`). -/
inductive Attrs (K τ F : Type) where
  | plain
  | piecewise (s : Option (PiecewiseState K τ))
  | fourier (s : FourierState F)

/-- Data of these objects: an array (`effects/base.py` 223-251) or, for the seasonality, what
`transform` of its linear effect returns (`effects/fourier.py` 96-125). -/
inductive AnyData (K : Type) where
  | array (t : Tensor K)
  | nested (t : Transformed (Tensor K))

section
variable {K τ F : Type}

/-- The attributes of classes without attributes of their own (`effects/linear.py` 34-41, `effects/log.py` 31-39, `effects/hill.py` 34-45). -/
def Attrs.plainEmb : Emb Unit (Attrs K τ F) :=
  ⟨fun _ => .plain, fun a => match a with | .plain => some () | _ => none, fun _ => rfl⟩

/-- The attributes set in `effects/trend/piecewise.py` 78-105. -/
def Attrs.piecewiseEmb : Emb (Option (PiecewiseState K τ)) (Attrs K τ F) :=
  ⟨.piecewise, fun a => match a with | .piecewise s => some s | _ => none, fun _ => rfl⟩

/-- The attributes set in `effects/fourier.py` 60-94. -/
def Attrs.fourierEmb : Emb (FourierState F) (Attrs K τ F) :=
  ⟨.fourier, fun a => match a with | .fourier s => some s | _ => none, fun _ => rfl⟩

/-- The data of an effect that is an array (`effects/base.py` 223-251). -/
def AnyData.arrayEmb : Emb (Tensor K) (AnyData K) :=
  ⟨.array, fun a => match a with | .array t => some t | _ => none, fun _ => rfl⟩

/-- The data that `effects/fourier.py` 123 takes over from the linear effect. -/
def AnyData.nestedEmb : Emb (Transformed (Tensor K)) (AnyData K) :=
  ⟨.nested, fun a => match a with | .nested t => some t | _ => none, fun _ => rfl⟩

end
end PV
