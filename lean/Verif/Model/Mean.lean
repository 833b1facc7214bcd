import Verif.Model.Broadcast

/-!
# The additive mean of the numpyro models (`models.py` 241-266)
-/

namespace PV

/-- Values of the numpyro sample sites, by site name.  A model run (prior draw, posterior
draw, MAP value) is a deterministic function of these. (`models.py` 250-262.) -/
abbrev SiteEnv (K : Type) := String → Tensor K

/-- `numpyro.handlers.scope(prefix=p)`: sites inside are called `p/site`. (`models.py` 261.) -/
def SiteEnv.scope {K : Type} (θ : SiteEnv K) (p : String) : SiteEnv K := fun s => θ (p ++ "/" ++ s)

/-- Calling an effect inside the model: `effect(data, predicted_effects)`
(`effects/base.py` 306-310), for the given values of the sample sites.  `D` is the type of
the data produced by `transform`. -/
abbrev EffectCall (D K : Type) := SiteEnv K → D → PyDict (Tensor K) → PyM (Tensor K)

/-- State of `_compute_mean_univariate`: running mean, the values recorded with
`numpyro.deterministic`, and `predicted_effects`. (`models.py` 248-265.) -/
structure MeanState (K : Type) where
  mean : Tensor K
  sites : PyDict (Tensor K)
  predicted : PyDict (Tensor K)

section
variable {D K : Type} [AddCommGroup K]

/-- One turn of the loop over `exogenous_effects.items()` (`models.py` 259-265).
jax arrays are immutable, so `mean += effect` does not alias the trend. -/
def meanStep (θ : SiteEnv K) (data : PyDict D) (st : MeanState K)
    (e : String × EffectCall D K) : PyM (MeanState K) := do
  let d ← data.getItem e.1
  let v ← e.2 (θ.scope e.1) d st.predicted
  let m ← Tensor.binop (· + ·) st.mean v
  pure { mean := m, sites := st.sites.set e.1 v, predicted := st.predicted.set e.1 v }

/-- `_compute_mean_univariate` (`models.py` 241-266). -/
def computeMean (trend : EffectCall D K) (trendData : D) (data : PyDict D)
    (effects : PyDict (EffectCall D K)) (θ : SiteEnv K) : PyM (MeanState K) := do
  let t ← trend θ trendData []
  effects.foldlM (meanStep θ data)
    { mean := t, sites := [("trend", t)], predicted := [("trend", t)] }

/-- One site of `numpyro.infer.Predictive`: the model is run once per draw and the values
recorded at the site are stacked along a new first axis (used in `engine.py` 176-198, 301-320).
`sh` is the shape of the site in each run. -/
def predictiveSite (sh : List Nat) (runs : List (MeanState K)) (name : String) : Tensor K :=
  ⟨runs.length :: sh, runs.flatMap fun st => ((st.sites.get? name).map Tensor.data).getD []⟩

end
end PV
