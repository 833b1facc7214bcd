import Verif.Props.ShownSaturation
import Verif.Props.Penalised

/-!
# C144: the components shown for the history are its penalised least squares explanation

The forecaster with a piecewise linear trend, seasonalities and linear effects.
-/

set_option linter.unusedSectionVars false

namespace PV
open Tensor

section
variable {τ F κ G Θ P H : Type} [LinearOrder τ]
variable {position : τ → ℤ} {compile : String → PyM (String → Bool)}
  {order : List String → List String} {days : τ → ℝ}
  {suggest : List ℝ → Tensor ℝ → PyM (List ℝ × List ℝ)}
  {p : PiecewiseParams ℝ τ} {kind : String → EffectKind}

/-- The recorded columns of trend, seasonalities and linear effects. -/
theorem usual_sites {cfg : UniConfig (UsualAttrs τ) (Scale ℝ) τ ℝ (AnyData ℝ) ℝ} {y : Frame String τ ℝ} {c : String}
    {X : Option (Frame String τ ℝ)} {x : Frame String τ ℝ} {m : UniFit (UsualAttrs τ) (Scale ℝ) τ ℝ (AnyData ℝ) ℝ}
    (hU : Usual position compile order days suggest p kind cfg)
    (hT : Training cfg y c X x) (hfit : uniFitData cfg y X = .ok m) :
    ∃ s cs, m.trend.st.2 = .piecewise (some s) ∧ s.cps = [cs] ∧
      ∀ (X' : Option (Frame String τ ℝ)) (x' : Frame String τ ℝ) (fh : List τ) td data (θ : SiteEnv ℝ) (st : MeanState ℝ),
      cfg.features (X'.getD (Frame.ofIndex fh)) = .ok x' → DatesIn x' fh →
      uniPredictData cfg m X' fh = .ok (td, data) → SingleSites cs θ →
      computeMean (m.trend.cls.call m.trend.st) td data (callsOf m.objs) θ = .ok st →
      st.sites.get? "trend" = some (columnOf (fh.map (usualTrend days s cs θ))) ∧
      (∀ fe ∈ usedEffects kind m, st.sites.get? fe.name = some (columnOf (fh.map fun t =>
        combine (kind fe.name).modeOf (usualTrend days s cs θ t)
          (dot ((kind fe.name).features position (firstPosition position y.times) fe.cols t (rowAt x' t))
            (θ (fe.name ++ "/coefs")).data)))) ∧
      ∀ q ∈ st.sites, q.2.shape = [fh.length, 1] ∧ q.2.WF := by
  obtain ⟨s, cs, hs, hcs, -, hpw⟩ := usual_trend hU hT hfit
  refine ⟨s, cs, hs, hcs, ?_⟩
  intro X' x' fh td data θ st hfeat hd hpd hθ hm
  obtain ⟨yT, x0, xf, hyT, htf, hx0, hx, htd, hfe, hdata, hobjs, hya⟩ := uniFitData_ok hfit
  obtain ⟨hn', htr'⟩ := C17_names hU.nodup hU.reserved hU.notTrend hfe
  have hsplit : m.trend.transform (some x') fh = .ok td ∧ transformEffects m.fitted x' fh = .ok data := by
    unfold uniPredictData at hpd
    simp only [hfeat, bind, Except.bind, pure, Except.pure] at hpd
    cases h3 : m.trend.transform (some x') fh with
    | error e => rw [h3] at hpd; cases hpd
    | ok td0 =>
      rw [h3] at hpd
      cases h4 : transformEffects m.fitted x' fh with
      | error e => rw [h4] at hpd; cases hpd
      | ok data0 => rw [h4] at hpd; cases hpd; exact ⟨rfl, rfl⟩
  obtain ⟨trv, -, htv, -⟩ := C17_own_data hn' htr' hsplit.2 hobjs hm
  have htc := hpw θ x' fh td trv hθ hd hsplit.1 htv
  have hsites := sites_entries hn' htr' hsplit.2 hobjs hm htv
    (val := fun fe => columnOf (fh.map fun t => (kind fe.name).value position (firstPosition position y.times) fe.cols
      (θ.scope fe.name) t (piecewiseAt days s cs θ t) (rowAt x' t)))
    (by
      intro fe hk xc d p v hxc htd hp' hcall
      rw [(usual_fitted hU hT hfit fe (List.mem_of_mem_filter hk)).1 _ xc fh d _ (piecewiseAt days s cs θ) _
        (hd.select hxc) htd (by rw [hp', htc]) hcall, rowAt_select hxc])
  have hkn : ((kept m.fitted).map FittedEffect.name).Nodup := hn'.sublist (List.filter_sublist.map _)
  refine ⟨by rw [hsites, htc]; simp [PyDict.get?]; rfl, fun fe hu => ?_, fun q hq => ?_⟩
  rotate_left
  · rw [hsites, htc] at hq
    rcases List.mem_cons.1 hq with rfl | hq
    · exact ⟨by simp [columnOf], columnOf_wf _⟩
    · obtain ⟨fe, -, rfl⟩ := List.mem_map.1 hq
      exact ⟨by simp [columnOf], columnOf_wf _⟩
  have hk : fe ∈ kept m.fitted := by rw [usual_kept hU hT hfit]; exact hu
  have hne : "trend" ≠ fe.name := fun h => htr' (h ▸ List.mem_map_of_mem (List.mem_of_mem_filter hk))
  rw [hsites, PyDict.get?, if_neg hne, get?_of_nodup hkn hk]
  congr 3
  funext t
  rw [kind_value, scope_coefs]
  cases kind fe.name <;> rfl

/-- The target handed to the model is the target over the factor of the table. -/
theorem fitTarget_single {discrete : Bool} {user : Option (Scale ℝ)} {y ys : Frame String τ ℝ} {s : Scale ℝ}
    (h : fitTarget discrete user y = .ok (s, ys)) (hy : y.nlevels = 1) {sids : List (List String)} {b : Bool} {k : ℝ}
    (hk : ScaleIs ⟨y.nlevels, sids, b, discrete, s⟩ [] k) :
    ys.times = y.times ∧ (k ≠ 0 → ∀ (col : String) (M : τ → ℝ),
      (y.rows.map fun row => (row.val col - k * M row.time) ^ 2).sum
        = k ^ 2 * (ys.rows.map fun row => (row.val col - M row.time) ^ 2).sum) := by
  obtain ⟨σ, hys, hσ⟩ := fitTarget_frame h
  have hk' : ∀ r ∈ y.rows, σ r.sid = k := by
    intro r hr
    rcases hσ r hr with ⟨h1, h2⟩ | ⟨h1, h2⟩ | ⟨-, h2, -⟩
    · rcases hk with ⟨-, h3⟩ | ⟨h3, -⟩ | ⟨h3, -⟩
      · rw [h2, h3]
      all_goals exact absurd (h1.symm.trans h3) (by simp)
    · rcases hk with ⟨h3, -⟩ | ⟨-, h3⟩ | ⟨-, e, h3, -⟩
      · exact absurd (h1.symm.trans h3) (by simp)
      · have h3 : s = .float k := h3
        rw [h2] at h3
        cases h3
        rfl
      · have h3 : s = .table e := h3
        rw [h2] at h3
        cases h3
    · exact absurd hy h2
  refine ⟨?_, fun hk0 col M => ?_⟩
  · rw [hys]; simp [Frame.times, Frame.mapVals]
  · rw [hys]
    simp only [Frame.mapVals, List.map_map]
    rw [← List.sum_map_mul_left]
    refine congrArg List.sum (List.map_congr_left fun r hr => ?_)
    simp only [Function.comp, hk' r hr]
    field_simp

/-- **C144**: the table that `predict_all_sites` shows for one series has, at every date of every horizon, the average of
the trend over the learned parameters, and for each seasonality and each linear effect the average of its
value there, times the scale of `y`. -/
theorem C144_table (np : Numpyro κ G (ModelArgs (AnyData ℝ) ℝ) ℝ Θ P (Draws ℝ)) (horizon : List τ → H → List τ)
    {w : World (UsualAttrs τ) τ (AnyData ℝ) ℝ F κ G Θ P} {i : Nat} {fc : Fc (UsualAttrs τ) τ (AnyData ℝ) ℝ κ G Θ P}
    (hi : w.fcs[i]? = some fc) {c : Contents (UsualAttrs τ) τ (AnyData ℝ) ℝ F κ G}
    (hc : Resolves w.heap w.feats fc.cfg c) (huni : c.hier = none)
    {Learned : ModelArgs (AnyData ℝ) ℝ → List (SiteEnv ℝ) → Prop}
    (hnp : ∀ a draw, LearnedFrom np fc.cfg a draw → ∃ θs, Learned a θs ∧ RunsModel draw θs)
    {y : Frame String τ ℝ} {X : Option (Frame String τ ℝ)} (hy : y.nlevels = 1) (hfit : (w.fit np i y X).1 = .ok ())
    (hU : ∀ s k x0, Usual position compile order days suggest p kind (c.uni s k x0))
    {col : String} {x : Frame String τ ℝ}
    (hT : ∀ s ys k, fitTarget c.discrete c.scale y = .ok (s, ys) →
      Training (c.uni s k (X.getD (Frame.ofIndex ys.times))) ys col X x) :
    ∃ s ys k m θs st cs, fitTarget c.discrete c.scale y = .ok (s, ys) ∧
      uniFitData (c.uni s k (X.getD (Frame.ofIndex ys.times))) ys X = .ok m ∧
      Learned (uniCall m s (some ⟨[m.yArray.length, 1], m.yArray⟩) (m.trendData, m.data)) θs ∧
      m.trend.st.2 = .piecewise (some st) ∧ st.cps = [cs] ∧
      ((∀ θ ∈ θs, SingleSites cs θ) → ∀ X' fh f x',
        ((w.fit np i y X).2.predict np horizon i .allSites X' fh).1 = .ok (.allSites f) →
        (c.uni s k (X.getD (Frame.ofIndex ys.times))).features (X'.getD (Frame.ofIndex (horizon y.times fh))) = .ok x' →
        DatesIn x' (horizon y.times fh) →
        ∀ r ∈ f.rows, ∃ k', ScaleIs ⟨y.nlevels, y.index.map Prod.fst, false, c.discrete, s⟩ [] k' ∧
          r.val "trend" = learnedMean θs (fun θ => usualTrend days st cs θ r.time) * k' ∧
          ∀ fe ∈ usedEffects kind m, r.val fe.name = learnedMean θs (fun θ =>
            combine (kind fe.name).modeOf (usualTrend days st cs θ r.time)
              (dot ((kind fe.name).features position (firstPosition position y.times) fe.cols r.time (rowAt x' r.time))
                (θ (fe.name ++ "/coefs")).data)) * k') := by
  obtain ⟨s, ys, k, m, θs, ht, hk, hm, hl, hall⟩ := C141_components np horizon hi hc huni hnp hy hfit
  obtain ⟨st, cs, hst, hcs, hcol⟩ := usual_sites (hU s k _) (hT s ys k ht) hm
  refine ⟨s, ys, k, m, θs, st, cs, ht, hm, hl, hst, hcs, ?_⟩
  intro hok X' fh f x' hf hx hdates r hr
  obtain ⟨d, runs, hd, hruns, hrows⟩ := hall X' fh f hf
  obtain ⟨q, k', hq, hk', hv⟩ := hrows r hr
  obtain ⟨htimes, -⟩ := fitTarget_single ht hy hk'
  rw [htimes] at hcol hx hd
  have hgen : ∀ (n : String) (h : SiteEnv ℝ → τ → ℝ), (∀ θ ∈ θs, ∀ st,
      computeMean (m.trend.cls.call m.trend.st) d.1 d.2 (callsOf m.objs) θ = .ok st →
      st.sites.get? n = some (columnOf ((horizon y.times fh).map (h θ)))) →
      r.val n = learnedMean θs (fun θ => h θ r.time) * k' := by
    intro n h hh
    rw [hv n (fun st hst => by
      obtain ⟨θ, hθ, h1⟩ := forall₂_source hruns hst
      exact ⟨_, hh θ hθ st h1, by simp [columnOf], columnOf_wf _⟩), learnedMean, ← hruns.length_eq]
    congr 3
    refine forall₂_map_eq hruns fun θ hθ st hst => ?_
    rw [hh θ hθ st hst]
    simp [columnOf, List.getD_eq_getElem?_getD, hq]
  have hcol' := fun θ hθ st' hst' => hcol X' x' (horizon y.times fh) d.1 d.2 θ st' hx hdates hd (hok θ hθ) hst'
  exact ⟨k', hk', hgen _ (usualTrend days st cs) fun θ hθ st' hst' => (hcol' θ hθ st' hst').1, fun fe hfe =>
    hgen _ (fun θ t => combine (kind fe.name).modeOf (usualTrend days st cs θ t)
          (dot ((kind fe.name).features position (firstPosition position y.times) fe.cols t (rowAt x' t))
            (θ (fe.name ++ "/coefs")).data)) fun θ hθ st' hst' => (hcol' θ hθ st' hst').2.1 fe hfe⟩

/-- What is recorded if the model runs at all parameters: sites with one entry per parameter, each as large as a
component (the observations of a panel have another order of axes). -/
def RecordsSites {D K : Type} [Field K] [LinearOrder K] (draw : ModelArgs D K → PyM (Draws K)) (θs : List (SiteEnv K)) : Prop :=
  ∀ a runs sh, List.Forall₂ (fun θ st => computeMean a.trend a.trendData a.data a.effects θ = .ok st) θs runs →
    (∀ st ∈ runs, st.mean.shape = sh ∧ ∀ q ∈ st.sites, q.2.shape = sh ∧ q.2.WF) →
    ∃ r, draw a = .ok r ∧ ∀ q ∈ r, ∃ sh', q.2.shape = θs.length :: sh' ∧ size sh' = size sh

theorem forall₂_exists {α β : Type} {R : α → β → Prop} : ∀ {l : List α}, (∀ a ∈ l, ∃ b, R a b) → ∃ l', List.Forall₂ R l l'
  | [], _ => ⟨[], .nil⟩
  | a :: l, h => by
    obtain ⟨b, hb⟩ := h a (by simp)
    obtain ⟨l', hl⟩ := forall₂_exists (l := l) fun a' ha' => h a' (by simp [ha'])
    exact ⟨b :: l', .cons hb hl⟩

/-- The table is made if all sites have one entry per date. -/
theorem predictAllSites_returns {discrete : Bool} {user : Option (Scale ℝ)} {y ys : Frame String τ ℝ} {s : Scale ℝ}
    (h : fitTarget discrete user y = .ok (s, ys)) (hy : y.nlevels = 1) {sids : List (List String)}
    {sites : PyDict (Tensor ℝ)} {S : Nat} {fh : List τ} (hs : ∀ q ∈ sites, ∃ sh, q.2.shape = S :: sh ∧ size sh = fh.length) :
    ∃ f, predictAllSites ⟨y.nlevels, sids, false, discrete, s⟩ sites fh = .ok f ∧ ∀ t ∈ fh, ∃ r ∈ f.rows, r.time = t := by
  suffices h : ∃ f, predictAllSites ⟨y.nlevels, sids, false, discrete, s⟩ sites fh = .ok f by
    obtain ⟨f, hf⟩ := h
    refine ⟨f, hf, fun t ht => ?_⟩
    obtain ⟨-, hperm, -, -⟩ := predictAllSites_rows hf
    have hmem : (([] : List String), t) ∈ f.index := hperm.mem_iff.2 (by
      simp [forecastSeries, hy, product, ht])
    obtain ⟨r, hr, he⟩ := List.mem_map.1 hmem
    exact ⟨r, hr, congrArg Prod.snd he⟩
  have hinv : ∀ g : Frame String τ ℝ, ∃ f, invScaleY discrete s g = .ok f := by
    intro g
    unfold fitTarget at h
    simp only [bind, Except.bind] at h
    split at h
    · cases h
    rename_i s' hs'
    split at h
    · cases h
    rename_i ys' hys'
    cases h
    unfold invScaleY
    unfold scaleY at hys'
    cases discrete with
    | true => exact ⟨_, rfl⟩
    | false =>
      cases s with
      | float v => exact ⟨_, rfl⟩
      | int v => cases hys'
      | table e =>
        simp [rowScales, hy, bind, Except.bind, throw, throwThe, MonadExceptOf.throw] at hys'
  unfold predictAllSites
  simp only [periodindexToMultiindex, hy, if_true, bind, Except.bind]
  rw [if_pos]
  · exact hinv _
  · intro q hq
    obtain ⟨q', hq', rfl⟩ := List.mem_map.1 hq
    obtain ⟨sh, h1, h2⟩ := hs q' hq'
    have := length_meanAxis0 h1
    rw [h2] at this
    simpa [flatten] using this

/-- **C144**: if the model can be run at the learned parameters, `predict_all_sites` returns, for every horizon whose
dates have features with the columns of the training data, a table with a row for every date. -/
theorem C144_answers (np : Numpyro κ G (ModelArgs (AnyData ℝ) ℝ) ℝ Θ P (Draws ℝ)) (horizon : List τ → H → List τ)
    {w : World (UsualAttrs τ) τ (AnyData ℝ) ℝ F κ G Θ P} {i : Nat} {fc : Fc (UsualAttrs τ) τ (AnyData ℝ) ℝ κ G Θ P}
    (hi : w.fcs[i]? = some fc) {c : Contents (UsualAttrs τ) τ (AnyData ℝ) ℝ F κ G}
    (hc : Resolves w.heap w.feats fc.cfg c) (huni : c.hier = none)
    {Learned : ModelArgs (AnyData ℝ) ℝ → List (SiteEnv ℝ) → Prop}
    (hnp : ∀ a draw, LearnedFrom np fc.cfg a draw → ∃ θs, Learned a θs ∧ RecordsSites draw θs)
    {y : Frame String τ ℝ} {X : Option (Frame String τ ℝ)} (hy : y.nlevels = 1) (hfit : (w.fit np i y X).1 = .ok ())
    (hU : ∀ s k x0, Usual position compile order days suggestLinear p kind (c.uni s k x0))
    (hw : ∀ n ss mode s, kind n = .seasonal ss mode s → waves ss ≠ [])
    {col : String} {x : Frame String τ ℝ}
    (hT : ∀ s ys k, fitTarget c.discrete c.scale y = .ok (s, ys) →
      Training (c.uni s k (X.getD (Frame.ofIndex ys.times))) ys col X x) :
    ∃ s ys k m θs st cs, fitTarget c.discrete c.scale y = .ok (s, ys) ∧
      uniFitData (c.uni s k (X.getD (Frame.ofIndex ys.times))) ys X = .ok m ∧
      Learned (uniCall m s (some ⟨[m.yArray.length, 1], m.yArray⟩) (m.trendData, m.data)) θs ∧
      m.trend.st.2 = .piecewise (some st) ∧ st.cps = [cs] ∧
      ((∀ θ ∈ θs, UsualSizes kind cs (usedEffects kind m) θ) → ∀ X' fh x',
        (c.uni s k (X.getD (Frame.ofIndex ys.times))).features (X'.getD (Frame.ofIndex (horizon y.times fh))) = .ok x' →
        DatesIn x' (horizon y.times fh) → (∀ a ∈ x.cols, a ∈ x'.cols) →
        (∀ X₀, X = some X₀ → ∀ a ∈ X₀.cols, a ∈ x'.cols) →
        ∃ f, ((w.fit np i y X).2.predict np horizon i .allSites X' fh).1 = .ok (.allSites f) ∧
          ∀ t ∈ horizon y.times fh, ∃ r ∈ f.rows, r.time = t) := by
  obtain ⟨s, ys, k, m, draw, ht, hk, hm, hl, hpred⟩ := C140_univariate np horizon hi hc huni hfit
  obtain ⟨θs, hne, hθs⟩ := hnp _ _ hl
  obtain ⟨st, cs, hst, hcs, hcol⟩ := usual_sites (hU s k _) (hT s ys k ht) hm
  obtain ⟨st', cs', hst', hcs', hF⟩ := C98_forecasts (hU s k _) (hT s ys k ht) hm hw
  rw [hst] at hst'
  cases hst'
  rw [hcs] at hcs'
  cases hcs'
  refine ⟨s, ys, k, m, θs, st, cs, ht, hm, hne, hst, hcs, ?_⟩
  intro hz X' fh x' hx hdates hcx hcX
  obtain ⟨td, data, hd, hrun⟩ := hF X' x' (horizon y.times fh) hx hdates hcx hcX
  obtain ⟨runs, hruns⟩ := forall₂_exists (R := fun θ st => computeMean (m.trend.cls.call m.trend.st) td data
    (callsOf m.objs) θ = .ok st) (l := θs) fun θ hθ => (hrun θ (hz θ hθ)).imp fun _ h => h.1
  obtain ⟨r, hr, hsh⟩ := hθs (uniCall m s none (td, data)) runs [(horizon y.times fh).length, 1] hruns (by
    intro st' hst'
    obtain ⟨θ, hθ, h1⟩ := forall₂_source hruns hst'
    refine ⟨?_, (hcol X' x' _ td data θ st' hx hdates hd (hz θ hθ).trend h1).2.2⟩
    obtain ⟨st₂, h2, h3, -⟩ := hrun θ (hz θ hθ)
    rw [h1] at h2
    cases h2
    exact h3)
  obtain ⟨f, hf, hrows⟩ := predictAllSites_returns ht hy (sids := y.index.map Prod.fst)
    (fun q hq => (hsh q hq).imp fun _ h => ⟨h.1, by simpa [size] using h.2⟩)
  refine ⟨f, ?_, hrows⟩
  rw [hpred, hd]
  simp only [Except.bind, hr, Query.answer, hf, bind, pure, Except.pure]

theorem learnedMean_same {θs : List (SiteEnv ℝ)} {θ : SiteEnv ℝ} (hne : θs ≠ []) (h : ∀ θ' ∈ θs, θ' = θ)
    (f : SiteEnv ℝ → ℝ) : learnedMean θs f = f θ := by
  have h1 : θs.map f = List.replicate θs.length (f θ) := by
    refine List.eq_replicate_iff.2 ⟨by simp, fun b hb => ?_⟩
    obtain ⟨θ', hθ', rfl⟩ := List.mem_map.1 hb
    rw [h θ' hθ']
  have h2 : (θs.length : ℝ) ≠ 0 := by
    rw [Nat.cast_ne_zero]
    exact fun h => hne (List.length_eq_zero_iff.1 h)
  rw [learnedMean, h1, List.sum_replicate, nsmul_eq_mul]
  field_simp

/-- **C144**: after maximum a posteriori inference with normal noise of a given level, the sum of the components shown for the history
is the explanation that minimises, in units of `y`, the squared errors plus the penalty of the parameters. -/
theorem C144_least_squares (np : Numpyro κ G (ModelArgs (AnyData ℝ) ℝ) ℝ Θ P (Draws ℝ)) (horizon : List τ → H → List τ)
    {w : World (UsualAttrs τ) τ (AnyData ℝ) ℝ F κ G Θ P} {i : Nat} {fc : Fc (UsualAttrs τ) τ (AnyData ℝ) ℝ κ G Θ P}
    (hi : w.fcs[i]? = some fc) {c : Contents (UsualAttrs τ) τ (AnyData ℝ) ℝ F κ G}
    (hc : Resolves w.heap w.feats fc.cfg c) (huni : c.hier = none)
    {Learned : ModelArgs (AnyData ℝ) ℝ → List (SiteEnv ℝ) → Prop}
    (hnp : ∀ a draw, LearnedFrom np fc.cfg a draw → ∃ θs, Learned a θs ∧ RunsModel draw θs)
    {y : Frame String τ ℝ} {X : Option (Frame String τ ℝ)} (hy : y.nlevels = 1) (hfit : (w.fit np i y X).1 = .ok ())
    (hU : ∀ s k x0, Usual position compile order days suggestLinear p kind (c.uni s k x0)) (hp : Starts p)
    {b : ℝ} (hb : p.priorScale = .scalar b)
    (hw : ∀ n ss mode s, kind n = .seasonal ss mode s → waves ss ≠ []) {sd : String → ℝ}
    (hprior : ∀ n, (kind n).prior = normalLP 0 (sd n))
    {col : String} {x : Frame String τ ℝ}
    (hT : ∀ s ys k, fitTarget c.discrete c.scale y = .ok (s, ys) →
      Training (c.uni s k (X.getD (Frame.ofIndex ys.times))) ys col X x) :
    ∃ s ys k m θs st cs μ, fitTarget c.discrete c.scale y = .ok (s, ys) ∧
      uniFitData (c.uni s k (X.getD (Frame.ofIndex ys.times))) ys X = .ok m ∧
      Learned (uniCall m s (some ⟨[m.yArray.length, 1], m.yArray⟩) (m.trendData, m.data)) θs ∧
      m.trend.st.2 = .piecewise (some st) ∧ st.cps = [cs] ∧ st.offsetLoc = [μ] ∧
      ∀ (θ : SiteEnv ℝ) (ns scale os σ L : ℝ), θs ≠ [] → (∀ θ' ∈ θs, θ' = θ) → σ ≠ 0 →
        BestIn kind .normal cs ns scale os (· = σ) m θ L →
        ∀ X' fh f x', ((w.fit np i y X).2.predict np horizon i .allSites X' fh).1 = .ok (.allSites f) →
          (c.uni s k (X.getD (Frame.ofIndex ys.times))).features (X'.getD (Frame.ofIndex (horizon y.times fh))) = .ok x' →
          DatesIn x' (horizon y.times fh) →
          (∀ t ∈ y.times, ∀ fe ∈ usedEffects kind m, ∀ n ∈ fe.cols, rowAt x' t n = rowAt x t n) →
          ∀ shown : τ → ℝ, (∀ t ∈ y.times, ∃ r ∈ f.rows, r.time = t ∧
            shown t = r.val "trend" + ((usedEffects kind m).map fun fe => r.val fe.name).sum) →
          ∃ k', ScaleIs ⟨y.nlevels, y.index.map Prod.fst, false, c.discrete, s⟩ [] k' ∧
            (∀ t ∈ y.times, shown t = k' * usualMean position kind days st cs y x m θ t) ∧
            ∀ θ', UsualSizes kind cs (usedEffects kind m) θ' → siteScalar θ' "noise_scale" = σ →
              (y.rows.map fun row => (row.val col - shown row.time) ^ 2).sum + (k' * σ) ^ 2 * price kind m μ os b sd θ
                ≤ (y.rows.map fun row => (row.val col - k' * usualMean position kind days st cs y x m θ' row.time) ^ 2).sum
                  + (k' * σ) ^ 2 * price kind m μ os b sd θ' := by
  obtain ⟨s, ys, k, m, θs, st, cs, ht, hm, hl, hst, hcs, hall⟩ := C144_table np horizon hi hc huni hnp hy hfit hU hT
  have hT' := hT s ys k ht
  obtain ⟨μ, hμ⟩ := List.length_eq_one_iff.1 (usual_offset (hU s k _) hp hT' hm hst).1
  refine ⟨s, ys, k, m, θs, st, cs, μ, ht, hm, hl, hst, hcs, hμ, ?_⟩
  intro θ ns scale os σ L hne hθs hσ hbest X' fh f x' hf hx hdates hagree shown hshown
  have htab := hall (fun θ' hθ' => by rw [hθs θ' hθ']; exact hbest.1.trend) X' fh f x' hf hx hdates
  obtain ⟨k', hk'⟩ : ∃ k', ScaleIs ⟨y.nlevels, y.index.map Prod.fst, false, c.discrete, s⟩ [] k' := by
    have hrows : y.rows ≠ [] := fun h => by
      obtain ⟨σ, hys, -⟩ := fitTarget_frame ht
      exact hT'.some (by rw [hys]; simp [Frame.mapVals, h])
    obtain ⟨r0, l0, h0⟩ := List.exists_cons_of_ne_nil hrows
    obtain ⟨r, hr, -⟩ := hshown r0.time (by simp [Frame.times, h0])
    obtain ⟨k', hk', -⟩ := htab r hr
    exact ⟨k', hk'⟩
  obtain ⟨htimes, hsum⟩ := fitTarget_single ht hy hk'
  have hmean : ∀ θ t, usualMean position kind days st cs ys x m θ t = usualMean position kind days st cs y x m θ t := by
    intro θ t
    simp only [usualMean, htimes]
  have hval : ∀ t ∈ y.times, shown t = k' * usualMean position kind days st cs y x m θ t := by
    intro t hty
    obtain ⟨r, hr, rfl, hsh⟩ := hshown t hty
    obtain ⟨k'', hk'', htr, he⟩ := htab r hr
    have := hk'.unique hk''
    subst this
    rw [hsh, htr, learnedMean_same hne hθs, usualMean, mul_add, ← List.sum_map_mul_left, mul_comm]
    congr 2
    refine List.map_congr_left fun fe hfe => ?_
    rw [he fe hfe, learnedMean_same hne hθs, mul_comm]
    congr 3
    cases kind fe.name with
    | seasonal => rfl
    | linear => exact List.map_congr_left fun n hn => hagree _ hty fe hfe n hn
  refine ⟨k', hk', hval, fun θ' hz' hN' => ?_⟩
  have hsh : (y.rows.map fun row => (row.val col - shown row.time) ^ 2).sum
      = (y.rows.map fun row => (row.val col - k' * usualMean position kind days st cs y x m θ row.time) ^ 2).sum := by
    refine congrArg List.sum (List.map_congr_left fun row hr => ?_)
    rw [hval row.time (List.mem_map_of_mem hr)]
  rw [hsh]
  by_cases hk0 : k' = 0
  · simp [hk0]
  have h := (C125_penalised (ns := ns) (scale := scale) (os := os) (hU s k _) hp hT' hm hb hw
    (fun fe _ => hprior fe.name) hst hcs hμ hσ hbest.1 hbest.2.1).1 ⟨L, hbest⟩ θ' hz' hN'
  rw [hsum hk0 col (usualMean position kind days st cs y x m θ), hsum hk0 col (usualMean position kind days st cs y x m θ')]
  simp only [squaredError, hmean] at h
  have h2 := mul_le_mul_of_nonneg_left h (sq_nonneg k')
  calc _ = k' ^ 2 * ((ys.rows.map fun row => (row.val col - usualMean position kind days st cs y x m θ row.time) ^ 2).sum
        + σ ^ 2 * price kind m μ os b sd θ) := by ring
    _ ≤ _ := h2
    _ = _ := by ring

end

/-! ## Example

The forecaster object with a piecewise linear trend, an additive weekly seasonality and three additive columns. -/

/-- Its configuration. -/
noncomputable def exConfig144 : FcConfig (UsualAttrs ℤ) ℤ (AnyData ℝ) ℝ Nat Unit :=
  { compile := exCfg96.compile, trend := .named exCfg96.trend, effects := [("weekly", 0, none)], default := none
    linear := exCfg96.default, features := none, hier := none, discrete := false, scale := some (.float 1)
    rngKey := none, method := "map", settings := () }

/-- The contents of the objects. -/
noncomputable def exContents144 : Contents (UsualAttrs ℤ) ℤ (AnyData ℝ) ℝ Unit Nat Unit :=
  { compile := exCfg96.compile, trend := exCfg96.trend, effects := exCfg96.effects, default := exCfg96.default
    features := none, hier := none, discrete := false, scale := some (.float 1), rngKey := none, method := "map"
    settings := () }

/-- The objects. -/
noncomputable def exWorld144 : World (UsualAttrs ℤ) ℤ (AnyData ℝ) ℝ Unit Nat Unit Unit Unit :=
  { heap := [exEffect95 "weekly"], feats := [], samples := none, fcs := [⟨exConfig144, none, none, none, false⟩] }

/-- A numpyro that finds the parameters `θ` and records every site of two samples. -/
noncomputable def exNumpyro144 (θ : SiteEnv ℝ) : Numpyro Nat Unit (ModelArgs (AnyData ℝ) ℝ) ℝ Unit Unit (Draws ℝ) :=
  { prngKey := id
    svi := fun _ _ _ => .ok ⟨(), [some 1, some 0]⟩
    samplePosterior := fun _ _ _ _ => .ok ()
    nuts := fun _ _ _ => .ok ()
    predictiveGuide := fun _ _ _ a => do
      let m ← computeMean a.trend a.trendData a.data a.effects θ
      pure (m.sites.map (fun s => (s.1, predictiveSite s.2.shape [m, m] s.1)))
    predictiveSamples := fun _ _ _ _ => .error .attributeError }

theorem exNumpyro144_runs (θ : SiteEnv ℝ) (a : ModelArgs (AnyData ℝ) ℝ)
    (draw : ModelArgs (AnyData ℝ) ℝ → PyM (Draws ℝ)) (h : LearnedFrom (exNumpyro144 θ) exConfig144 a draw) :
    ∃ θs, θs = [θ, θ] ∧ RunsModel draw θs := by
  refine ⟨_, rfl, ?_⟩
  rcases h with ⟨-, run, loss, -, -, rfl⟩ | ⟨h, -⟩
  · intro a r hr
    cases hm : computeMean a.trend a.trendData a.data a.effects θ with
    | error e =>
      simp only [exNumpyro144, hm] at hr
      cases hr
    | ok m =>
      simp only [exNumpyro144, hm] at hr
      have hr := Except.ok.inj hr
      refine ⟨[m, m], .cons hm (.cons hm .nil), fun n sh hn => ?_⟩
      obtain ⟨v, hv, hs, -⟩ := hn m (by simp)
      rw [← hr, ← hs]
      clear hr hn hs hm
      generalize m.sites = d at hv
      induction d with
      | nil => cases hv
      | cons q d ih =>
        obtain ⟨b, t⟩ := q
        simp only [PyDict.get?, List.map_cons] at hv ⊢
        by_cases hq : b = n
        · rw [if_pos hq] at hv ⊢
          rw [Option.some.inj hv, hq]
        · rw [if_neg hq] at hv ⊢
          exact ih hv
  · exact absurd h (by simp [exConfig144])

theorem exResolves144 : Resolves exWorld144.heap exWorld144.feats exConfig144 exContents144 :=
  HasContents.resolves ⟨rfl, rfl, .cons ⟨rfl, rfl, _, rfl, rfl⟩ .nil, rfl, trivial, rfl, rfl, rfl, rfl, rfl, rfl⟩

theorem exUsual144 (s : Scale ℝ) (k : ℝ) (x0 : Frame String ℤ ℝ) :
    Usual id someCompile id (fun n : ℤ => (n : ℝ)) suggestLinear exP85 exKind96 (exContents144.uni s k x0) :=
  { exUsual96 with }

theorem exTraining144 (s : Scale ℝ) (ys : Frame String ℤ ℝ) (k : ℝ)
    (h : fitTarget exContents144.discrete exContents144.scale exY85 = .ok (s, ys)) :
    Training (exContents144.uni s k ((some exX97).getD (Frame.ofIndex ys.times))) ys "y" (some exX97) exX97 := by
  have h' := h.symm.trans exScaled142R
  cases h'
  exact { exTraining123 with }

theorem exNumpyro144_records (θ : SiteEnv ℝ) (a : ModelArgs (AnyData ℝ) ℝ)
    (draw : ModelArgs (AnyData ℝ) ℝ → PyM (Draws ℝ)) (h : LearnedFrom (exNumpyro144 θ) exConfig144 a draw) :
    ∃ θs, θs = [θ, θ] ∧ RecordsSites draw θs := by
  refine ⟨_, rfl, ?_⟩
  rcases h with ⟨-, run, loss, -, -, rfl⟩ | ⟨h, -⟩
  · intro a runs sh hr hs
    cases hr with
    | @cons _ st _ _ h1 _ =>
    refine ⟨_, by simp only [exNumpyro144, h1, bind, Except.bind]; rfl, fun q hq => ?_⟩
    obtain ⟨q', hq', rfl⟩ := List.mem_map.1 hq
    have := ((hs st (by simp)).2 q' hq').1
    exact ⟨sh, by simp [predictiveSite, this], rfl⟩
  · exact absurd h (by simp [exConfig144])

/-- A fitted object that has learned the best parameters of its model shows components of the history, and no other
parameters explain the history better. -/
example : ∃ (θ : SiteEnv ℝ) (m : UniFit (UsualAttrs ℤ) (Scale ℝ) ℤ ℝ (AnyData ℝ) ℝ) (st : PiecewiseState ℝ ℤ) (cs : List ℝ)
    (L : ℝ) (f : Frame String ℤ ℝ) (shown : ℤ → ℝ),
    (exWorld144.fit (exNumpyro144 θ) 0 exY85 (some exX97)).1 = .ok () ∧
    BestIn exKind96 .normal cs (1 / 20) 1 (1 / 10) (· = 1 / 20) m θ L ∧
    ((exWorld144.fit (exNumpyro144 θ) 0 exY85 (some exX97)).2.predict (exNumpyro144 θ) (fun _ (fh : List ℤ) => fh) 0
      .allSites (some exX97) [0, 1, 2]).1 = .ok (.allSites f) ∧
    (∀ t ∈ [0, 1, 2], ∃ r ∈ f.rows, r.time = t ∧
      shown t = r.val "trend" + ((usedEffects exKind96 m).map fun fe => r.val fe.name).sum) ∧
    ∀ θ', UsualSizes exKind96 cs (usedEffects exKind96 m) θ' → siteScalar θ' "noise_scale" = 1 / 20 →
      (1 - shown 0) ^ 2 + (3 - shown 1) ^ 2 + (4 - shown 2) ^ 2 + (1 / 20) ^ 2 * price exKind96 m 1 (1 / 10) 2 exSd125 θ
        ≤ squaredError id exKind96 (fun n : ℤ => (n : ℝ)) st cs exY85 "y" exX97 m θ'
          + (1 / 20) ^ 2 * price exKind96 m 1 (1 / 10) 2 exSd125 θ' := by
  have hmono : StrictMono fun n : ℤ => (n : ℝ) := fun _ _ h => Int.cast_lt.2 h
  obtain ⟨m, hm⟩ := C98_fits exUsual96 exValid123 hmono exTraining123 (by simp [exY85]) (by rintro _ ⟨⟩ a ha; exact ha)
  obtain ⟨st, cs, hs, hcs, -⟩ := usual_coords exUsual96 exTraining123 hm (b := 2) rfl exWaves123
  obtain ⟨θ, L, hθ⟩ := bestIn_exists exUsual96 (.inl rfl) exTraining123 hm (b := 2) rfl (by norm_num) exWaves123
    (fun n => by rw [exPrior125]; exact continuous_normalLP _ _)
    (fun n => by rw [exPrior125]; exact tendsto_normalLP _ (by unfold exSd125; split <;> norm_num)) hs hcs
    (1 / 20) 1 (1 / 20) (os := 1 / 10) (by norm_num)
  have hμ : st.offsetLoc = [1] := by
    have := first_location exUsual96 rfl rfl hmono exTraining123 (by simp [exY85]) hm hs
    simpa [exY85] using this
  have hfit : (exWorld144.fit (exNumpyro144 θ) 0 exY85 (some exX97)).1 = .ok () := by
    have h := (C140_errors (exNumpyro144 θ) (w := exWorld144) (i := 0) rfl exResolves144 rfl
      (y := exY85) (X := some exX97) (s := .float 1) (ys := exY85) (k := 1) exScaled142R rfl).2 m hm
    rw [h]
    rfl
  have hty : exY85.times = [0, 1, 2] := by simp [exY85, Frame.times]
  have hdates : DatesIn exX97 [0, 1, 2] := hty ▸ exTraining123.dates
  obtain ⟨s, ys, k, m', θs, st', cs', ht, hm', hl, hst', hcs', hans⟩ := C144_answers (exNumpyro144 θ)
    (fun _ (fh : List ℤ) => fh) (w := exWorld144) (i := 0) rfl exResolves144 rfl (exNumpyro144_records θ) (y := exY85)
    (X := some exX97) rfl hfit exUsual144 exWaves123 exTraining144
  have ht' := ht.symm.trans exScaled142R
  cases ht'
  have hmm : m' = m := Except.ok.inj (hm'.symm.trans hm)
  subst hmm
  rw [hs] at hst'
  cases hst'
  rw [hcs] at hcs'
  cases hcs'
  obtain ⟨f, hf, hrows⟩ := hans (by rw [hl]; simpa using hθ.1) (some exX97) [0, 1, 2] exX97 rfl hdates
    (fun a ha => ha) (by rintro _ ⟨⟩ a ha; exact ha)
  clear hl hans
  obtain ⟨s, ys, k, m₂, θs, st', cs', μ, ht, hm₂, hl, hst', hcs', hμ', hbest⟩ := C144_least_squares (exNumpyro144 θ)
    (fun _ (fh : List ℤ) => fh) (w := exWorld144) (i := 0) rfl exResolves144 rfl (exNumpyro144_runs θ) (y := exY85)
    (X := some exX97) rfl hfit exUsual144 (.inl rfl) (b := 2) rfl exWaves123 exPrior125 exTraining144
  have ht' := ht.symm.trans exScaled142R
  cases ht'
  have hmm : m₂ = m' := Except.ok.inj (hm₂.symm.trans hm)
  subst hmm
  rw [hs] at hst'
  cases hst'
  rw [hcs] at hcs'
  cases hcs'
  rw [hμ] at hμ'
  cases hμ'
  subst hl
  have : Nonempty (Row String ℤ ℝ) := ⟨⟨[], 0, fun _ => 0⟩⟩
  choose! row hrow using hrows
  have hshown : ∀ t ∈ [(0 : ℤ), 1, 2], ∃ r ∈ f.rows, r.time = t ∧
      (row t).val "trend" + ((usedEffects exKind96 m₂).map fun fe => (row t).val fe.name).sum
        = r.val "trend" + ((usedEffects exKind96 m₂).map fun fe => r.val fe.name).sum :=
    fun t ht => ⟨row t, (hrow t ht).1, (hrow t ht).2, rfl⟩
  refine ⟨θ, m₂, st, cs, L, f, fun t => (row t).val "trend" + ((usedEffects exKind96 m₂).map fun fe => (row t).val fe.name).sum,
    hfit, hθ, hf, hshown, ?_⟩
  obtain ⟨k', hk', -, h⟩ := hbest θ (1 / 20) 1 (1 / 10) (1 / 20) L (by simp) (by simp) (by norm_num) hθ (some exX97) [0, 1, 2] f
    exX97 hf rfl hdates (fun _ _ _ _ _ _ => rfl) _ (by rw [hty]; exact hshown)
  have hk1 : k' = 1 := by
    rcases hk' with ⟨h1, -⟩ | ⟨-, h1⟩ | ⟨-, e, h1, -⟩
    · cases h1
    · cases h1; rfl
    · cases h1
  subst hk1
  intro θ' hz hN
  have h2 := h θ' hz hN
  simp only [one_mul] at h2
  refine le_trans (le_of_eq ?_) h2
  simp [exY85]
  ring

end PV
