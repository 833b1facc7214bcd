import Verif.Model.World

/-!
# What a fitted forecaster has learned
-/

namespace PV
section
variable {S τ D K κ G Θ P : Type}

/-- `draw` computes predictive draws from the posterior of the model with arguments `a`: with
`"map"` from the parameters an optimisation on `a` ended with, whose last loss is a number; with
`"mcmc"` from the samples NUTS made on `a`. The key is the user's, or the one made from 24. -/
def LearnedFrom (np : Numpyro κ G (ModelArgs D K) K Θ P (Draws K)) (cfg : FcConfig S τ D K κ G)
    (a : ModelArgs D K) (draw : ModelArgs D K → PyM (Draws K)) : Prop :=
  (cfg.method = "map" ∧ ∃ run loss,
    np.svi (cfg.rngKey.getD (np.prngKey 24)) cfg.settings a = .ok run ∧
    run.losses.getLast? = some (some loss) ∧
    draw = np.predictiveGuide (cfg.rngKey.getD (np.prngKey 24)) cfg.settings run.params) ∨
  (cfg.method = "mcmc" ∧ ∃ p,
    np.nuts (cfg.rngKey.getD (np.prngKey 24)) cfg.settings a = .ok p ∧
    draw = np.predictiveSamples (cfg.rngKey.getD (np.prngKey 24)) cfg.settings p)

/-- Two calls of the model use the same trend, effects and constants. -/
def SameModel (a a' : ModelArgs D K) : Prop :=
  a'.trend = a.trend ∧ a'.effects = a.effects ∧ a'.kwargs = a.kwargs

end
end PV
