import Verif.Props.ComponentsLearned

/-!
# C143: the components shown for a panel are those of the model at the learned parameters
-/

set_option linter.unusedSectionVars false

namespace PV
open Tensor
section
variable {S τ D K F κ G Θ P H : Type} [Field K] [LinearOrder K] [IsStrictOrderedRing K] [LinearOrder τ] [FloorRing K]

/-- The series and dates a fitted forecaster shows components for, in the order of the model's arrays: for each bottom
series all dates of the horizon. -/
def shownCells (ctx : Fitted K) (fh : List τ) : List (List String × τ) :=
  (forecastSeries ctx).flatMap fun a => fh.map fun t => (a, t)

/-- **C143**: after `fit` of a panel has returned there are parameters `θs`, which the inference learned from the training
data, such that for every horizon and all exogenous variables a row of `predict_all_sites` belongs to one bottom series
and one date and shows for trend and effects the average over `θs` of what the model computes for this series and date, in
units of this series. -/
theorem C143_components (np : Numpyro κ G (ModelArgs D K) K Θ P (Draws K)) (horizon : List τ → H → List τ)
    {w : World S τ D K F κ G Θ P} {i : Nat} {fc : Fc S τ D K κ G Θ P} (hi : w.fcs[i]? = some fc)
    {c : Contents S τ D K F κ G} (hc : Resolves w.heap w.feats fc.cfg c) {o : HierOpts τ K} (hh : c.hier = some o)
    {Learned : ModelArgs D K → List (SiteEnv K) → Prop}
    (hnp : ∀ a draw, LearnedFrom np fc.cfg a draw → ∃ θs, Learned a θs ∧ RunsModel draw θs)
    {y : Frame String τ K} {X : Option (Frame String τ K)} (hfit : (w.fit np i y X).1 = .ok ()) :
    ∃ s ys m θs, fitTarget c.discrete c.scale y = .ok (s, ys) ∧
      hierFitData (c.hierConfig o s (hierSeen o.keep ys X)) ys X = .ok m ∧
      Learned (hierCall m (some m.yArray) (m.trendData, m.data)) θs ∧
      ∀ X' fh f, ((w.fit np i y X).2.predict np horizon i .allSites X' fh).1 = .ok (.allSites f) →
        ∃ d runs, hierPredictData (c.hierConfig o s (hierSeen o.keep ys X)) m (o.levels y) y X' (horizon y.times fh) = .ok d ∧
          List.Forall₂ (fun θ st => computeMean (m.trend.cls.call m.trend.st) d.1 d.2 (callsOf m.objs) θ = .ok st) θs runs ∧
          f.index.Perm (shownCells ⟨y.nlevels, m.internalIndex.map Prod.fst, true, c.discrete, s⟩ (horizon y.times fh)) ∧
          ∀ r ∈ f.rows, ∃ p k, (shownCells ⟨y.nlevels, m.internalIndex.map Prod.fst, true, c.discrete, s⟩
              (horizon y.times fh))[p]? = some (r.sid, r.time) ∧
            ScaleIs ⟨y.nlevels, m.internalIndex.map Prod.fst, true, c.discrete, s⟩ r.sid k ∧
            ∀ n sh, (∀ st ∈ runs, ∃ v, st.sites.get? n = some v ∧ v.shape = sh ∧ v.WF) → p < size sh →
              r.val n = (runs.map fun st => (((st.sites.get? n).map Tensor.data).getD []).getD p 0).sum / (runs.length : K) * k := by
  obtain ⟨s, ys, m, draw, ht, hm, hl, hpred⟩ := C140_hierarchical np horizon hi hc hh hfit
  obtain ⟨θs, hne, hθs⟩ := hnp _ _ hl
  refine ⟨s, ys, m, θs, ht, hm, hne, fun X' fh f hf => ?_⟩
  rw [hpred] at hf
  cases hd : hierPredictData (c.hierConfig o s (hierSeen o.keep ys X)) m (o.levels y) y X' (horizon y.times fh) with
  | error e => rw [hd] at hf; cases hf
  | ok d =>
    rw [hd] at hf
    simp only [Except.bind] at hf
    cases hr : draw (hierCall m none d) with
    | error e => rw [hr] at hf; cases hf
    | ok r =>
      rw [hr] at hf
      simp only [Query.answer, bind, Except.bind] at hf
      split at hf
      · cases hf
      rename_i f' hf'
      cases hf
      obtain ⟨runs, hruns, hsites⟩ := hθs _ _ hr
      obtain ⟨-, hperm, -, hrows⟩ := predictAllSites_rows hf'
      refine ⟨d, runs, rfl, hruns, hperm, fun row hrow => ?_⟩
      obtain ⟨p, k', hp, hk', hv⟩ := hrows row hrow
      refine ⟨p, k', hp, hk', fun n sh hn hpl => ?_⟩
      rw [hv n _ (hsites n _ hn), predictiveSite_mean hn hpl]

/-- **C143**, MAP: if the guide gives one value `θ` to the parameters, and the optimisation ends with parameters that are
`Best` for the arrays of the training, then every component shown is the one the model computes at these parameters. -/
theorem C143_map (np : Numpyro κ G (ModelArgs D K) K Θ P (Draws K)) (horizon : List τ → H → List τ)
    {w : World S τ D K F κ G Θ P} {i : Nat} {fc : Fc S τ D K κ G Θ P} (hi : w.fcs[i]? = some fc)
    {c : Contents S τ D K F κ G} (hc : Resolves w.heap w.feats fc.cfg c) {o : HierOpts τ K} (hh : c.hier = some o)
    {Best : ModelArgs D K → SiteEnv K → Prop}
    (hnp : ∀ a draw, LearnedFrom np fc.cfg a draw → ∃ θ num, Best a θ ∧ 0 < num ∧ RunsModel draw (List.replicate num θ))
    {y : Frame String τ K} {X : Option (Frame String τ K)} (hfit : (w.fit np i y X).1 = .ok ()) :
    ∃ s ys m θ, fitTarget c.discrete c.scale y = .ok (s, ys) ∧
      hierFitData (c.hierConfig o s (hierSeen o.keep ys X)) ys X = .ok m ∧
      Best (hierCall m (some m.yArray) (m.trendData, m.data)) θ ∧
      ∀ X' fh f, ((w.fit np i y X).2.predict np horizon i .allSites X' fh).1 = .ok (.allSites f) →
        ∃ d st, hierPredictData (c.hierConfig o s (hierSeen o.keep ys X)) m (o.levels y) y X' (horizon y.times fh) = .ok d ∧
          computeMean (m.trend.cls.call m.trend.st) d.1 d.2 (callsOf m.objs) θ = .ok st ∧
          f.index.Perm (shownCells ⟨y.nlevels, m.internalIndex.map Prod.fst, true, c.discrete, s⟩ (horizon y.times fh)) ∧
          ∀ r ∈ f.rows, ∃ p k, (shownCells ⟨y.nlevels, m.internalIndex.map Prod.fst, true, c.discrete, s⟩
              (horizon y.times fh))[p]? = some (r.sid, r.time) ∧
            ScaleIs ⟨y.nlevels, m.internalIndex.map Prod.fst, true, c.discrete, s⟩ r.sid k ∧
            ∀ n v, st.sites.get? n = some v → v.WF → p < size v.shape → r.val n = v.data.getD p 0 * k := by
  obtain ⟨s, ys, m, θs, ht, hm, ⟨θ, num, hb, hnum, rfl⟩, hall⟩ := C143_components np horizon hi hc hh
    (Learned := fun a θs => ∃ θ num, Best a θ ∧ 0 < num ∧ θs = List.replicate num θ)
    (fun a draw h => by
      obtain ⟨θ, num, h1, h2, h3⟩ := hnp a draw h
      exact ⟨_, ⟨θ, num, h1, h2, rfl⟩, h3⟩) hfit
  refine ⟨s, ys, m, θ, ht, hm, hb, fun X' fh f hf => ?_⟩
  obtain ⟨d, runs, hd, hruns, hperm, hrows⟩ := hall X' fh f hf
  have hne : List.replicate num θ ≠ [] := by
    simp only [ne_eq, List.replicate_eq_nil_iff]
    omega
  obtain ⟨st, hst, hsame, havg⟩ := runs_equal (θ := θ) (fun θ' h => List.eq_of_mem_replicate h) hne hruns
  refine ⟨d, st, hd, hst, hperm, fun r hr => ?_⟩
  obtain ⟨p, k', hp, hk', hv⟩ := hrows r hr
  refine ⟨p, k', hp, hk', fun n v hn hwf hps => ?_⟩
  rw [hv n v.shape (fun st' h => ⟨v, by rw [hsame st' h]; exact hn, rfl, hwf⟩) hps, havg n p, hn]
  rfl

end

/-! The panel of `C26`'s example, with a numpyro that records every site. -/

/-- The parameters. -/
def exTheta143 : SiteEnv ℚ := exSiteValues (.hierarchical false)

/-- Two samples of the guide, all sites recorded. -/
def exNumpyro143 : Numpyro Nat Unit (ModelArgs (Tensor ℚ) ℚ) ℚ Unit Unit (Draws ℚ) :=
  { exNumpyro with
    predictiveGuide := fun _ _ _ a => do
      let m ← computeMean a.trend a.trendData a.data a.effects exTheta143
      pure (m.sites.map (fun s => (s.1, predictiveSite s.2.shape [m, m] s.1))) }

theorem exNumpyro143_runs (a : ModelArgs (Tensor ℚ) ℚ) (draw : ModelArgs (Tensor ℚ) ℚ → PyM (Draws ℚ))
    (h : LearnedFrom exNumpyro143 (exConfigH (.object 0)) a draw) :
    ∃ θ num, θ = exTheta143 ∧ 0 < num ∧ RunsModel draw (List.replicate num θ) := by
  refine ⟨_, 2, rfl, by omega, ?_⟩
  rcases h with ⟨-, run, loss, -, -, rfl⟩ | ⟨h, -⟩
  · intro a r hr
    cases hm : computeMean a.trend a.trendData a.data a.effects exTheta143 with
    | error e =>
      simp only [exNumpyro143, hm] at hr
      cases hr
    | ok m =>
      simp only [exNumpyro143, hm] at hr
      have hr := Except.ok.inj hr
      refine ⟨[m, m], .cons hm (.cons hm .nil), fun n sh hn => ?_⟩
      obtain ⟨v, hv, hs, -⟩ := hn m (by simp)
      rw [← hr, ← hs]
      have := get?_recorded m.sites (fun n sh => predictiveSite sh [m, m] n) [] hv
      rwa [List.append_nil] at this
  · exact absurd h (by decide)

/-- A component of a panel as a table. -/
def exComponentH (n : String) (r : PyM (Answer ℤ ℚ)) : Option (List (List String × ℤ × ℚ)) :=
  match r with
  | .ok (.allSites f) => some (f.rows.map fun r => (r.sid, r.time, r.val n))
  | _ => none

/-- The trend of the panel for the times 2 and 3. -/
def exTrend143 : Option (List (List String × ℤ × ℚ)) := exComponentH "trend"
    ((((exWorld.step exNumpyro143 exHorizon (.new (exConfigH (.object 0)))).fit exNumpyro143 0
      (exPanelW 3 5) none).2.predict exNumpyro143 exHorizon 0 .allSites none [2, 3]).1)

example : exTrend143 = some [(["a"], 2, 39), (["a"], 3, 42), (["b"], 2, 130), (["b"], 3, 140)] ∧
    ((exWorld.step exNumpyro143 exHorizon (.new (exConfigH (.object 0)))).fit exNumpyro143 0 (exPanelW 3 5) none).1.isOk = true := by
  decide +kernel

end PV
