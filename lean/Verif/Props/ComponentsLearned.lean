import Verif.Props.Pipeline
import Verif.Props.Components

/-!
# C141: the components of a forecast are those of the model at the learned parameters
-/

set_option linter.unusedSectionVars false

namespace PV
open Tensor
section
variable {S τ D K F κ G Θ P H : Type} [Field K] [LinearOrder K] [IsStrictOrderedRing K] [LinearOrder τ] [FloorRing K]

/-- What `numpyro.infer.Predictive` does: the model is run once for each of the parameters `θs`, whatever the other
arguments, and the values recorded at a site are stacked. -/
def RunsModel (draw : ModelArgs D K → PyM (Draws K)) (θs : List (SiteEnv K)) : Prop :=
  ∀ a r, draw a = .ok r → ∃ runs, List.Forall₂ (fun θ st => computeMean a.trend a.trendData a.data a.effects θ = .ok st) θs runs ∧
    ∀ n sh, (∀ st ∈ runs, ∃ v, st.sites.get? n = some v ∧ v.shape = sh ∧ v.WF) → r.get? n = some (predictiveSite sh runs n)

/-- The stacked site averaged over the runs. -/
theorem predictiveSite_mean {runs : List (MeanState K)} {n : String} {sh : List Nat}
    (h : ∀ st ∈ runs, ∃ v, st.sites.get? n = some v ∧ v.shape = sh ∧ v.WF) {p : Nat} (hp : p < size sh) :
    (predictiveSite sh runs n).meanAxis0.data.getD p 0
      = (runs.map fun st => (((st.sites.get? n).map Tensor.data).getD []).getD p 0).sum / (runs.length : K) := by
  have hall : ∀ st ∈ runs, (((st.sites.get? n).map Tensor.data).getD []).length = size sh := by
    intro st hst
    obtain ⟨v, hv, hs, hw⟩ := h st hst
    rw [hv, ← hs]
    exact hw
  rw [meanAxis0_getD (S := runs.length) (sh := sh) rfl hp]
  congr 2
  apply List.ext_getElem
  · simp
  intro i h1 h2
  simp only [List.getElem_map, List.getElem_range]
  have hi : i < runs.length := by simpa using h2
  have := getElem?_flatMap_const runs (fun st => ((st.sites.get? n).map Tensor.data).getD []) (size sh) hall i p hi hp
  rw [List.getD_eq_getElem?_getD]
  simp only [predictiveSite]
  rw [this]
  simp [List.getD_eq_getElem?_getD]

/-- **C141**: after `fit` of one series has returned there are parameters `θs`, which the inference learned from the training data, such
that for every horizon and all exogenous variables a row of `predict_all_sites` shows for trend and effects the average
over `θs` of what the model computes from the arrays of this horizon, in units of `y`. -/
theorem C141_components (np : Numpyro κ G (ModelArgs D K) K Θ P (Draws K)) (horizon : List τ → H → List τ)
    {w : World S τ D K F κ G Θ P} {i : Nat} {fc : Fc S τ D K κ G Θ P} (hi : w.fcs[i]? = some fc)
    {c : Contents S τ D K F κ G} (hc : Resolves w.heap w.feats fc.cfg c) (huni : c.hier = none)
    {Learned : ModelArgs D K → List (SiteEnv K) → Prop}
    (hnp : ∀ a draw, LearnedFrom np fc.cfg a draw → ∃ θs, Learned a θs ∧ RunsModel draw θs)
    {y : Frame String τ K} {X : Option (Frame String τ K)} (hy : y.nlevels = 1) (hfit : (w.fit np i y X).1 = .ok ()) :
    ∃ s ys k m θs, fitTarget c.discrete c.scale y = .ok (s, ys) ∧ (if c.discrete then s.divisor else .ok 1) = .ok k ∧
      uniFitData (c.uni s k (X.getD (Frame.ofIndex ys.times))) ys X = .ok m ∧
      Learned (uniCall m s (some ⟨[m.yArray.length, 1], m.yArray⟩) (m.trendData, m.data)) θs ∧
      ∀ X' fh f, ((w.fit np i y X).2.predict np horizon i .allSites X' fh).1 = .ok (.allSites f) →
        ∃ d runs, uniPredictData (c.uni s k (X.getD (Frame.ofIndex ys.times))) m X' (horizon y.times fh) = .ok d ∧
          List.Forall₂ (fun θ st => computeMean (m.trend.cls.call m.trend.st) d.1 d.2 (callsOf m.objs) θ = .ok st) θs runs ∧
          ∀ r ∈ f.rows, ∃ p k', (horizon y.times fh)[p]? = some r.time ∧
            ScaleIs ⟨y.nlevels, y.index.map Prod.fst, false, c.discrete, s⟩ [] k' ∧
            ∀ n, (∀ st ∈ runs, ∃ v, st.sites.get? n = some v ∧ v.shape = [(horizon y.times fh).length, 1] ∧ v.WF) →
              r.val n = (runs.map fun st => (((st.sites.get? n).map Tensor.data).getD []).getD p 0).sum / (runs.length : K) * k' := by
  obtain ⟨s, ys, k, m, draw, ht, hk, hm, hl, hpred⟩ := C140_univariate np horizon hi hc huni hfit
  obtain ⟨θs, hne, hθs⟩ := hnp _ _ hl
  refine ⟨s, ys, k, m, θs, ht, hk, hm, hne, fun X' fh f hf => ?_⟩
  rw [hpred] at hf
  cases hd : uniPredictData (c.uni s k (X.getD (Frame.ofIndex ys.times))) m X' (horizon y.times fh) with
  | error e => rw [hd] at hf; cases hf
  | ok d =>
    rw [hd] at hf
    simp only [Except.bind] at hf
    cases hr : draw (uniCall m s none d) with
    | error e => rw [hr] at hf; cases hf
    | ok r =>
      rw [hr] at hf
      simp only [Query.answer, bind, Except.bind] at hf
      split at hf
      · cases hf
      rename_i f' hf'
      cases hf
      obtain ⟨runs, hruns, hsites⟩ := hθs _ _ hr
      refine ⟨d, runs, rfl, hruns, fun row hrow => ?_⟩
      obtain ⟨-, -, -, hrows⟩ := predictAllSites_rows hf'
      obtain ⟨p, k', hp, hk', hv⟩ := hrows row hrow
      have hfs : forecastSeries (⟨y.nlevels, y.index.map Prod.fst, false, c.discrete, s⟩ : Fitted K) = [[]] := by
        simp [forecastSeries, hy]
      rw [hfs] at hp
      have hprod : product [([] : List String)] (horizon y.times fh) = (horizon y.times fh).map fun t => ([], t) := by
        simp [product]
      rw [hprod, List.getElem?_map, Option.map_eq_some_iff] at hp
      obtain ⟨t, ht1, ht2⟩ := hp
      rw [Prod.mk.injEq] at ht2
      refine ⟨p, k', by rw [ht1, ht2.2], ht2.1 ▸ hk', fun n hn => ?_⟩
      · have hpl : p < size [(horizon y.times fh).length, 1] := by
          simpa [size] using (List.getElem?_eq_some_iff.1 ht1).1
        rw [hv n _ (hsites n _ hn), predictiveSite_mean hn hpl]

/-- Every result of a pointwise relation has a source. -/
theorem forall₂_source {α β : Type} {R : α → β → Prop} {l : List α} {l' : List β} (h : List.Forall₂ R l l') {b : β}
    (hb : b ∈ l') : ∃ a ∈ l, R a b := by
  induction h with
  | nil => cases hb
  | cons h1 _ ih =>
    rcases List.mem_cons.1 hb with rfl | hb
    · exact ⟨_, by simp, h1⟩
    · obtain ⟨a, ha, h⟩ := ih hb
      exact ⟨a, by simp [ha], h⟩

/-- Equal runs. -/
theorem runs_equal {runs : List (MeanState K)} {θs : List (SiteEnv K)} {θ : SiteEnv K} (hθ : ∀ θ' ∈ θs, θ' = θ) (hne : θs ≠ [])
    {run : SiteEnv K → PyM (MeanState K)} (h : List.Forall₂ (fun θ st => run θ = .ok st) θs runs) :
    ∃ st, run θ = .ok st ∧ (∀ st' ∈ runs, st' = st) ∧ ∀ n p, (runs.map fun st => (((st.sites.get? n).map Tensor.data).getD []).getD p 0).sum
      / (runs.length : K) = (((st.sites.get? n).map Tensor.data).getD []).getD p 0 := by
  have key : ∃ st, run θ = .ok st ∧ ∀ st' ∈ runs, st' = st := by
    cases h with
    | nil => exact absurd rfl hne
    | @cons a b l l' h1 h2 =>
      rw [hθ a (by simp)] at h1
      refine ⟨b, h1, ?_⟩
      intro st' hst'
      rcases List.mem_cons.1 hst' with rfl | hst'
      · rfl
      · obtain ⟨θ', hθ', h3⟩ := forall₂_source h2 hst'
        rw [hθ θ' (by simp [hθ']), h1] at h3
        exact (Except.ok.inj h3).symm
  obtain ⟨st, hst, hall⟩ := key
  refine ⟨st, hst, hall, fun n p => ?_⟩
  have hlen : runs.length ≠ 0 := by
    rw [← h.length_eq]
    simpa using hne
  have : runs = List.replicate runs.length st := List.eq_replicate_iff.2 ⟨rfl, hall⟩
  rw [this]
  simp only [List.map_replicate, List.sum_replicate, List.length_replicate, nsmul_eq_mul]
  field_simp

/-- **C141**, MAP: if the guide gives one value `θ` to the parameters, and the optimisation ends with parameters that
are `Best` for the arrays of the training, then every component shown is the one the model computes at these parameters. -/
theorem C141_map (np : Numpyro κ G (ModelArgs D K) K Θ P (Draws K)) (horizon : List τ → H → List τ)
    {w : World S τ D K F κ G Θ P} {i : Nat} {fc : Fc S τ D K κ G Θ P} (hi : w.fcs[i]? = some fc)
    {c : Contents S τ D K F κ G} (hc : Resolves w.heap w.feats fc.cfg c) (huni : c.hier = none)
    {Best : ModelArgs D K → SiteEnv K → Prop}
    (hnp : ∀ a draw, LearnedFrom np fc.cfg a draw → ∃ θ num, Best a θ ∧ 0 < num ∧ RunsModel draw (List.replicate num θ))
    {y : Frame String τ K} {X : Option (Frame String τ K)} (hy : y.nlevels = 1) (hfit : (w.fit np i y X).1 = .ok ()) :
    ∃ s ys k m θ, fitTarget c.discrete c.scale y = .ok (s, ys) ∧ (if c.discrete then s.divisor else .ok 1) = .ok k ∧
      uniFitData (c.uni s k (X.getD (Frame.ofIndex ys.times))) ys X = .ok m ∧
      Best (uniCall m s (some ⟨[m.yArray.length, 1], m.yArray⟩) (m.trendData, m.data)) θ ∧
      ∀ X' fh f, ((w.fit np i y X).2.predict np horizon i .allSites X' fh).1 = .ok (.allSites f) →
        ∃ d st, uniPredictData (c.uni s k (X.getD (Frame.ofIndex ys.times))) m X' (horizon y.times fh) = .ok d ∧
          computeMean (m.trend.cls.call m.trend.st) d.1 d.2 (callsOf m.objs) θ = .ok st ∧
          ∀ r ∈ f.rows, ∃ p k', (horizon y.times fh)[p]? = some r.time ∧
            ScaleIs ⟨y.nlevels, y.index.map Prod.fst, false, c.discrete, s⟩ [] k' ∧
            ∀ n v, st.sites.get? n = some v → v.shape = [(horizon y.times fh).length, 1] → v.WF →
              r.val n = v.data.getD p 0 * k' := by
  obtain ⟨s, ys, k, m, θs, ht, hk, hm, ⟨θ, num, hb, hnum, rfl⟩, hall⟩ := C141_components np horizon hi hc huni
    (Learned := fun a θs => ∃ θ num, Best a θ ∧ 0 < num ∧ θs = List.replicate num θ)
    (fun a draw h => by
      obtain ⟨θ, num, h1, h2, h3⟩ := hnp a draw h
      exact ⟨_, ⟨θ, num, h1, h2, rfl⟩, h3⟩) hy hfit
  refine ⟨s, ys, k, m, θ, ht, hk, hm, hb, fun X' fh f hf => ?_⟩
  obtain ⟨d, runs, hd, hruns, hrows⟩ := hall X' fh f hf
  have hne : List.replicate num θ ≠ [] := by
    simp only [ne_eq, List.replicate_eq_nil_iff]
    omega
  obtain ⟨st, hst, hsame, havg⟩ := runs_equal (θ := θ) (fun θ' h => List.eq_of_mem_replicate h) hne hruns
  refine ⟨d, st, hd, hst, fun r hr => ?_⟩
  obtain ⟨p, k', hp, hk', hv⟩ := hrows r hr
  refine ⟨p, k', hp, hk', fun n v hn hsh hwf => ?_⟩
  rw [hv n (fun st' h => ⟨v, by rw [hsame st' h]; exact hn, hsh, hwf⟩), havg n p, hn]
  rfl

end

/-! A numpyro whose guide always gives the same parameters, and which records every site of the model: it meets the
hypotheses, and the forecaster of `C26` with a feature transformer can be fitted and asked for its components. -/

/-- The parameters. -/
def exTheta141 : SiteEnv ℚ := exSiteValues (.univariate (.float 1))

/-- Two samples of the guide, all sites recorded. -/
def exNumpyro141 : Numpyro Nat Unit (ModelArgs (Tensor ℚ) ℚ) ℚ Unit Unit (Draws ℚ) :=
  { exNumpyro with
    predictiveGuide := fun _ _ _ a => do
      let m ← computeMean a.trend a.trendData a.data a.effects exTheta141
      pure (m.sites.map (fun s => (s.1, predictiveSite s.2.shape [m, m] s.1)) ++ [("obs", ⟨1 :: m.mean.shape, m.mean.data⟩)]) }

theorem get?_recorded (d : PyDict (Tensor ℚ)) (f : String → List Nat → Tensor ℚ) (e : PyDict (Tensor ℚ)) {n : String} {v : Tensor ℚ}
    (h : d.get? n = some v) :
    PyDict.get? (d.map (fun s => (s.1, f s.1 s.2.shape)) ++ e) n = some (f n v.shape) := by
  induction d with
  | nil => cases h
  | cons q d ih =>
    obtain ⟨a, b⟩ := q
    simp only [PyDict.get?, List.map_cons, List.cons_append] at h ⊢
    by_cases hq : a = n
    · rw [if_pos hq] at h ⊢
      rw [Option.some.inj h, hq]
    · rw [if_neg hq] at h ⊢
      exact ih h

theorem exNumpyro141_runs (a : ModelArgs (Tensor ℚ) ℚ) (draw : ModelArgs (Tensor ℚ) ℚ → PyM (Draws ℚ))
    (h : LearnedFrom exNumpyro141 (exConfigW (.object 0) (some 0)) a draw) :
    ∃ θ num, θ = exTheta141 ∧ 0 < num ∧ RunsModel draw (List.replicate num θ) := by
  refine ⟨_, 2, rfl, by omega, ?_⟩
  rcases h with ⟨-, run, loss, -, -, rfl⟩ | ⟨h, -⟩
  · intro a r hr
    cases hm : computeMean a.trend a.trendData a.data a.effects exTheta141 with
    | error e =>
      simp only [exNumpyro141, hm] at hr
      cases hr
    | ok m =>
      simp only [exNumpyro141, hm] at hr
      have hr := Except.ok.inj hr
      refine ⟨[m, m], .cons hm (.cons hm .nil), fun n sh hn => ?_⟩
      obtain ⟨v, hv, hs, -⟩ := hn m (by simp)
      rw [← hr, ← hs]
      exact get?_recorded m.sites (fun n sh => predictiveSite sh [m, m] n) _ hv
  · exact absurd h (by decide)

/-- A component as a table. -/
def exComponent (n : String) (r : PyM (Answer ℤ ℚ)) : Option (List (ℤ × ℚ)) :=
  match r with
  | .ok (.allSites f) => some (f.rows.map fun r => (r.time, r.val n))
  | _ => none

/-- The trend of the forecast for the times 4 and 5. -/
def exTrend141 : Option (List (ℤ × ℚ)) := exComponent "trend"
    ((((exWorld.step exNumpyro141 exHorizon (.new (exConfigW (.object 0) (some 0)))).fit exNumpyro141 0
      (exTarget [0, 1, 2, 3]) (some (exRegressor [0, 1, 2, 3] fun t => t))).2.predict exNumpyro141 exHorizon 0 .allSites
      (some (exRegressor [4, 5] fun t => t)) [4, 5]).1)

example : exTrend141 = some [(4, 128), (5, 152)] ∧
    ((exWorld.step exNumpyro141 exHorizon (.new (exConfigW (.object 0) (some 0)))).fit exNumpyro141 0
      (exTarget [0, 1, 2, 3]) (some (exRegressor [0, 1, 2, 3] fun t => t))).1.isOk = true := by
  decide +kernel

end PV
