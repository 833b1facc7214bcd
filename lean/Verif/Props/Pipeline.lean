import Verif.Props.Learned
import Verif.Props.Engine

/-!
# C140: fit and the predictions of an object are the computation on its configuration and its data

The connection between forecaster objects and the statements about prepared data (`uniFitData`, `hierFitData`,
`uniPredictData`, `hierPredictData`) of the other properties.
-/

namespace PV
section
variable {S τ D K F κ G Θ P H : Type} [Field K] [LinearOrder K] [LinearOrder τ] [FloorRing K]

/-- The model of a univariate forecaster, called with a target (or without) and with arrays `d` for trend and effects. -/
def uniCall (m : UniFit S (Scale K) τ K D K) (s : Scale K) (target : Option (Tensor K))
    (d : Transformed D × PyDict (Transformed D)) : ModelArgs D K :=
  { y := target, trend := m.trend.cls.call m.trend.st, trendData := d.1, effects := callsOf m.objs, data := d.2,
    kwargs := .univariate s }

/-- The model of a hierarchical forecaster. -/
def hierCall (m : HierFit S (Scale K) τ D K) (target : Option (Tensor K))
    (d : Transformed D × PyDict (Transformed D)) : ModelArgs D K :=
  { y := target, trend := m.trend.cls.call m.trend.st, trendData := d.1, effects := callsOf m.objs, data := d.2,
    kwargs := .hierarchical m.single }

omit [FloorRing K] in
theorem valInfer_learned {np : Numpyro κ G (ModelArgs D K) K Θ P (Draws K)} {c : Contents S τ D K F κ G}
    {cfg : FcConfig S τ D K κ G} (hk : cfg.rngKey = c.rngKey) (hm : cfg.method = c.method) (hs : cfg.settings = c.settings)
    {a : ModelArgs D K} (h : (valInfer np c a).1 = .ok ()) :
    ∃ eng, (valInfer np c a).2 = some eng ∧ LearnedFrom np cfg a (eng.draws np) := by
  unfold valInfer at h ⊢
  cases hsel : selectEngine c.method with
  | error e => rw [hsel] at h; cases h
  | ok kind =>
    rw [hsel] at h
    simp only at h ⊢
    refine ⟨_, rfl, ?_⟩
    refine infer_learned (e0 := Engine.new np kind c.settings (some (c.rngKey.getD (np.prngKey 24)))) ?_ ?_
    · unfold makeEngine
      simp only [bind, Except.bind, hm, hsel, hs, hk]
      rfl
    · exact Prod.ext h rfl

/-- **C140**, one series: when `fit(y, X)` has returned, the target was scaled, trend and effects were fitted on the
scaled target and the transformed features of `X`, and the posterior is the one of the model called with exactly these
arrays; every prediction prepares the arrays of the horizon with the same fitted trend and effects from `X'`, draws
from this posterior and converts the draws. -/
theorem C140_univariate (np : Numpyro κ G (ModelArgs D K) K Θ P (Draws K)) (horizon : List τ → H → List τ)
    {w : World S τ D K F κ G Θ P} {i : Nat} {fc : Fc S τ D K κ G Θ P} (hi : w.fcs[i]? = some fc)
    {c : Contents S τ D K F κ G} (hc : Resolves w.heap w.feats fc.cfg c) (huni : c.hier = none)
    {y : Frame String τ K} {X : Option (Frame String τ K)} (hfit : (w.fit np i y X).1 = .ok ()) :
    ∃ s ys k m draw, fitTarget c.discrete c.scale y = .ok (s, ys) ∧ (if c.discrete then s.divisor else .ok 1) = .ok k ∧
      uniFitData (c.uni s k (X.getD (Frame.ofIndex ys.times))) ys X = .ok m ∧
      LearnedFrom np fc.cfg (uniCall m s (some ⟨[m.yArray.length, 1], m.yArray⟩) (m.trendData, m.data)) draw ∧
      ∀ q X' fh, ((w.fit np i y X).2.predict np horizon i q X' fh).1
        = (uniPredictData (c.uni s k (X.getD (Frame.ofIndex ys.times))) m X' (horizon y.times fh)).bind fun d =>
            (draw (uniCall m s none d)).bind fun r =>
              q.answer none ⟨y.nlevels, y.index.map Prod.fst, false, c.discrete, s⟩ (y.cols.headD "") r
                (horizon y.times fh) := by
  obtain ⟨h1, h2⟩ := fit_predict_value np horizon hi hc y X
  rw [hfit] at h1
  have hv := h1.symm
  unfold valFit at hv
  cases hp : valPrepare c y X with
  | error e => rw [hp] at hv; cases hv
  | ok v =>
    rw [hp] at hv
    simp only at hv
    obtain ⟨eng, heng, hl⟩ := valInfer_learned (cfg := fc.cfg) hc.rngKey hc.method hc.settings hv
    have hpr := hp
    rw [valPrepare_eq] at hpr
    cases ht : fitTarget c.discrete c.scale y with
    | error e => rw [ht] at hpr; cases hpr
    | ok sys =>
      obtain ⟨s, ys⟩ := sys
      rw [ht] at hpr
      simp only [valPrepareScaled, huni] at hpr
      split at hpr
      · cases hpr
      rename_i k hk
      split at hpr
      · cases hpr
      rename_i m hm
      cases hpr
      refine ⟨s, ys, k, m, eng.draws np, rfl, hk, hm, hl, fun q X' fh => ?_⟩
      rw [h2]
      unfold valPredict
      rw [← h1, hp]
      simp only [Except.isOk, Except.toBool, Bool.not_true, Bool.and_false, Bool.false_eq_true, if_false, heng]
      simp only [bind, ValPrepared.predictArgs, ValPrepared.sids, ValPrepared.scale, huni, Option.isSome_none]
      cases uniPredictData (c.uni s k (X.getD (Frame.ofIndex ys.times))) m X' (horizon y.times fh) <;> rfl

/-- **C140**, hierarchies. -/
theorem C140_hierarchical (np : Numpyro κ G (ModelArgs D K) K Θ P (Draws K)) (horizon : List τ → H → List τ)
    {w : World S τ D K F κ G Θ P} {i : Nat} {fc : Fc S τ D K κ G Θ P} (hi : w.fcs[i]? = some fc)
    {c : Contents S τ D K F κ G} (hc : Resolves w.heap w.feats fc.cfg c) {o : HierOpts τ K} (hh : c.hier = some o)
    {y : Frame String τ K} {X : Option (Frame String τ K)} (hfit : (w.fit np i y X).1 = .ok ()) :
    ∃ s ys m draw, fitTarget c.discrete c.scale y = .ok (s, ys) ∧
      hierFitData (c.hierConfig o s (hierSeen o.keep ys X)) ys X = .ok m ∧
      LearnedFrom np fc.cfg (hierCall m (some m.yArray) (m.trendData, m.data)) draw ∧
      ∀ q X' fh, ((w.fit np i y X).2.predict np horizon i q X' fh).1
        = (hierPredictData (c.hierConfig o s (hierSeen o.keep ys X)) m (o.levels y) y X' (horizon y.times fh)).bind
          fun d => (draw (hierCall m none d)).bind fun r =>
            q.answer (some o) ⟨y.nlevels, m.internalIndex.map Prod.fst, true, c.discrete, s⟩ (y.cols.headD "") r
              (horizon y.times fh) := by
  obtain ⟨h1, h2⟩ := fit_predict_value np horizon hi hc y X
  rw [hfit] at h1
  have hv := h1.symm
  unfold valFit at hv
  cases hp : valPrepare c y X with
  | error e => rw [hp] at hv; cases hv
  | ok v =>
    rw [hp] at hv
    simp only at hv
    obtain ⟨eng, heng, hl⟩ := valInfer_learned (cfg := fc.cfg) hc.rngKey hc.method hc.settings hv
    have hpr := hp
    rw [valPrepare_eq] at hpr
    cases ht : fitTarget c.discrete c.scale y with
    | error e => rw [ht] at hpr; cases hpr
    | ok sys =>
      obtain ⟨s, ys⟩ := sys
      rw [ht] at hpr
      simp only [valPrepareScaled, hh] at hpr
      split at hpr
      · cases hpr
      rename_i m hm
      cases hpr
      refine ⟨s, ys, m, eng.draws np, rfl, hm, hl, fun q X' fh => ?_⟩
      rw [h2]
      unfold valPredict
      rw [← h1, hp]
      simp only [Except.isOk, Except.toBool, Bool.not_true, Bool.and_false, Bool.false_eq_true, if_false, heng]
      simp only [bind, ValPrepared.predictArgs, ValPrepared.sids, ValPrepared.scale, hh, Option.isSome_some]
      cases hierPredictData (c.hierConfig o s (hierSeen o.keep ys X)) m (o.levels y) y X' (horizon y.times fh) <;> rfl

omit [FloorRing K] in
/-- **C140**: `fit(y, X)` fails only where the target cannot be scaled, the data cannot be prepared or inference fails,
and then with the error of that step. -/
theorem C140_errors (np : Numpyro κ G (ModelArgs D K) K Θ P (Draws K))
    {w : World S τ D K F κ G Θ P} {i : Nat} {fc : Fc S τ D K κ G Θ P} (hi : w.fcs[i]? = some fc)
    {c : Contents S τ D K F κ G} (hc : Resolves w.heap w.feats fc.cfg c) (huni : c.hier = none)
    {y : Frame String τ K} {X : Option (Frame String τ K)} {s : Scale K} {ys : Frame String τ K} {k : K}
    (ht : fitTarget c.discrete c.scale y = .ok (s, ys)) (hk : (if c.discrete then s.divisor else .ok 1) = .ok k) :
    (∀ err, uniFitData (c.uni s k (X.getD (Frame.ofIndex ys.times))) ys X = .error err → (w.fit np i y X).1 = .error err) ∧
    ∀ m, uniFitData (c.uni s k (X.getD (Frame.ofIndex ys.times))) ys X = .ok m →
      (w.fit np i y X).1
        = (valInfer np c (uniCall m s (some ⟨[m.yArray.length, 1], m.yArray⟩) (m.trendData, m.data))).1 := by
  obtain ⟨h1, -⟩ := fit_sim np hi hc y X
  have hp := valPrepare_eq c y X
  rw [ht] at hp
  have hk' : (if c.discrete = true then s.divisor else pure 1) = Except.ok k := hk
  simp only [valPrepareScaled, huni, hk'] at hp
  constructor
  · intro err he
    rw [he] at hp
    rw [h1, valFit, hp]
  · intro m hm
    rw [hm] at hp
    rw [h1, valFit, hp]
    rfl

end
/-! Examples: a forecaster with a trend object and a feature transformer of the user, and a hierarchical one. -/

example : Resolves exWorld.heap exWorld.feats (exConfigW (.object 0) (some 0)) (exContents (some exCenter)) ∧
    (exContents (some exCenter)).hier = none ∧
    ((exWorld.step exNumpyro exHorizon (.new (exConfigW (.object 0) (some 0)))).fit exNumpyro 0 (exTarget [0, 1, 2, 3])
      (some (exRegressor [0, 1, 2, 3] fun t => t))).1.isOk = true :=
  ⟨HasContents.resolves ⟨rfl, ⟨exTrendObj, rfl, rfl, fun _ _ _ _ _ => rfl⟩, .nil, rfl,
    ⟨0, rfl, fun _ _ _ => rfl⟩, rfl, rfl, rfl, rfl, rfl, rfl⟩, rfl, by decide +kernel⟩

example : Resolves exWorld.heap exWorld.feats (exConfigH (.object 0)) { exContents none with hier := some exHierOpts } ∧
    ((exWorld.step exNumpyro exHorizon (.new (exConfigH (.object 0)))).fit exNumpyro 0 (exPanelW 3 5) none).1.isOk = true :=
  ⟨HasContents.resolves ⟨rfl, ⟨exTrendObj, rfl, rfl, fun _ _ _ _ _ => rfl⟩, .nil, rfl, trivial, rfl, rfl,
    rfl, rfl, rfl, rfl⟩, by decide +kernel⟩

/-- A transformer that fails makes `fit` fail, as `C140_errors` says. -/
example : (valPrepare (exContents (some { exCenter with fitTransform := fun m _ => (.error .valueError, m) }))
    (exTarget [0, 1, 2, 3]) none).isOk = false ∧
    (fitTarget false none (exTarget [0, 1, 2, 3])).isOk = true := by
  decide +kernel

end PV
