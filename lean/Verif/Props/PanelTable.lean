import Verif.Props.PanelLearned
import Verif.Props.PanelFuture
import Verif.Props.ShownSaturation
import Verif.Props.SeriesOrder
import Verif.Props.Scaling

/-!
# C143: the table of components that a fitted panel shows
-/

set_option linter.unusedSectionVars false

namespace PV
open Tensor
noncomputable section

variable {τ : Type} [LinearOrder τ]
variable {days : τ → ℝ} {p : PiecewiseParams ℝ τ} {mode : String → String}

/-- The recorded sites of a fitted panel, cell by cell. -/
theorem hier_sites {m : HierFit (Option (PiecewiseState ℝ τ)) (Scale ℝ) τ (Tensor ℝ) ℝ}
    (hM : ∀ fe ∈ m.fitted, fe.effect.cls = linearClass (mode fe.name)) {ss : List (List String)}
    (hnd : ss.Nodup) (hsq : ss.length ≠ 1 ∨ p.squeeze = false) {ts : List τ} {X : Option (Frame String τ ℝ)}
    {x z : Frame String τ ℝ}
    {s : PiecewiseState ℝ τ} (h : HierFitted days p ss ts X m x s) {fh : List τ} (hinc : fh.Pairwise (· < ·))
    (hz : x.cols = [] ∨ PanelIn z ss fh)
    {td : Transformed (Tensor ℝ)} {data : PyDict (Transformed (Tensor ℝ))}
    (htd : m.trend.transform (some z) fh = .ok td) (hdata : transformEffects m.fitted z fh = .ok data)
    {θ : SiteEnv ℝ} (hθ : PanelSites s.cps θ) {st : MeanState ℝ}
    (hm : computeMean (m.trend.cls.call m.trend.st) td data (callsOf m.objs) θ = .ok st) :
    st.sites.get? "trend" = some (panelOf ss fh (panelTrendAt days s ss θ)) ∧
    (∀ fe ∈ kept m.fitted, st.sites.get? fe.name = some (panelOf ss fh fun a t =>
      combine (mode fe.name) (panelTrendAt days s ss θ a t)
        (Tensor.dot (fe.cols.map (cellAt z a t)) (θ (fe.name ++ "/coefs")).data))) ∧
    ∀ q ∈ st.sites, q.2.shape = [ss.length, fh.length, 1] ∧ q.2.WF := by
  have hsc : ∀ n, θ.scope n "coefs" = θ (n ++ "/coefs") := by
    intro n
    unfold SiteEnv.scope
    rw [String.append_assoc]
    rfl
  obtain ⟨trv, -, htv, -⟩ := C17_own_data h.nodup h.notTrend hdata h.objs hm
  have htc := piecewise_cells h.cls h.state hnd h.series h.changepoints h.count hsq θ z fh td trv hθ
    h.panel.someSeries hinc htd htv
  have hsites := sites_entries h.nodup h.notTrend hdata h.objs hm htv
    (val := fun fe => panelOf ss fh fun a t => combine (mode fe.name) (panelTrendAt days s ss θ a t)
        (Tensor.dot (fe.cols.map (cellAt z a t)) (θ (fe.name ++ "/coefs")).data))
    (by
      intro fe hfe xc d q v hxc htr hq hcall
      have hmem := (List.mem_filter.1 hfe).1
      rcases hz with h0 | hz
      · obtain ⟨h1, h2⟩ := (hier_kept h).1 hfe
        obtain ⟨c, hc⟩ := List.exists_mem_of_ne_nil _ h2
        have := (h.linear fe h1).2.2 c hc
        rw [h0] at this
        cases this
      have hcls := hM fe hmem
      have hpe := C74_effect (e := fe.effect) (mode := mode fe.name) (by rw [hcls]; rfl)
        (fun _ _ _ => by rw [hcls]; rfl) (fun _ => by rw [hcls]; rfl) rowWise_linear
      rw [hpe _ xc ss fh d _ (panelTrendAt days s ss θ) _ (hz.select hxc) htr (by rw [hq, htc]) hcall]
      obtain ⟨-, hst, -⟩ := h.linear fe hmem
      congr 1
      funext a t
      unfold cellValue combine
      simp only [hst, Option.getD_some, List.headD_cons, hsc, cellAt_select hxc]
      rw [List.map_congr_left (f := onCols fe.cols (cellAt z a t)) (g := cellAt z a t) fun c hc => by
        unfold onCols
        rw [if_pos hc]])
  have hkn : ((kept m.fitted).map FittedEffect.name).Nodup := h.nodup.sublist (List.filter_sublist.map _)
  refine ⟨by rw [hsites, htc]; simp [PyDict.get?], fun fe hk => ?_, fun q hq => ?_⟩
  rotate_left
  · rw [hsites, htc] at hq
    rcases List.mem_cons.1 hq with rfl | hq
    · exact ⟨rfl, panelOf_wf _ _ _⟩
    · obtain ⟨fe, -, rfl⟩ := List.mem_map.1 hq
      exact ⟨rfl, panelOf_wf _ _ _⟩
  have hne : "trend" ≠ fe.name := fun he => h.notTrend (he ▸ List.mem_map_of_mem (List.mem_of_mem_filter hk))
  rw [hsites, PyDict.get?, if_neg hne, get?_of_nodup hkn hk]

/-- Scaling keeps the rows of a panel. -/
theorem mapVals_panel {y : Frame String τ ℝ} (g : List String → ℝ → ℝ) :
    (RegularPanel y → RegularPanel (y.mapVals g)) ∧ (∀ ss, SeriesOf y ss → SeriesOf (y.mapVals g) ss) ∧
      ∀ ts, DatesOf y ts → DatesOf (y.mapVals g) ts := by
  refine ⟨fun h => ⟨?_, h.levels, h.column, ?_, ?_, ?_, ?_⟩, fun ss h => ⟨h.sorted, fun a => ?_⟩,
    fun ts h => ⟨h.sorted, fun t => ?_⟩⟩
  · intro r hr
    obtain ⟨r', hr', rfl⟩ := List.mem_map.1 hr
    exact h.wf r' hr'
  · have := h.ordered
    unfold TimeSorted at this ⊢
    exact List.pairwise_map.2 this
  · intro r hr r' hr'
    obtain ⟨q, hq, rfl⟩ := List.mem_map.1 hr
    obtain ⟨q', hq', rfl⟩ := List.mem_map.1 hr'
    obtain ⟨u, hu, h1, h2⟩ := h.regular q hq q' hq'
    exact ⟨_, List.mem_map_of_mem hu, h1, h2⟩
  · obtain ⟨r, hr, h1⟩ := h.bottom
    exact ⟨_, List.mem_map_of_mem hr, h1⟩
  · obtain ⟨r, hr, r', hr', h1⟩ := h.twoDates
    exact ⟨_, List.mem_map_of_mem hr, _, List.mem_map_of_mem hr', h1⟩
  · rw [h.mem]
    unfold Frame.mapVals
    simp
  · rw [h.mem]
    unfold Frame.mapVals
    simp

/-- The forecasts of a regular panel are labelled with its bottom series, in lexicographic order. -/
theorem forecastSeries_regular (keep : List String → Bool) {y : Frame String τ ℝ} (hy : RegularPanel y)
    {yB : Frame String τ ℝ} (h : locBottom (aggregate keep y) = .ok yB) {ctx : Fitted ℝ}
    (h1 : ctx.yNlevels = y.nlevels) (h2 : ctx.hierarchical = true)
    (h3 : ctx.internalSids = (aggregate keep y).index.map Prod.fst) : forecastSeries ctx = yB.series := by
  obtain ⟨yB', ts, hb, rfl, hB⟩ := bottom_panel keep hy
  rw [h] at hb
  cases hb
  have := hy.levels
  unfold forecastSeries
  rw [if_neg (by omega), h3, sids_of_index, h2]
  show _ = unique (((aggregate keep y).rows.filter _).map Row.sid)
  rw [← unique_filter]
  congr 1
  rw [List.filter_map]
  congr 1
  apply List.filter_congr
  intro r _
  by_cases hr : r.sid.getLast? = some "__total" <;> simp [hr]

theorem shownCells_panelOf {ctx : Fitted ℝ} {ss : List (List String)} (h : forecastSeries ctx = ss) (fh : List τ)
    (f : List String → τ → ℝ) : (panelOf ss fh f).data = (shownCells ctx fh).map fun c => f c.1 c.2 := by
  unfold panelOf shownCells
  rw [h, List.map_flatMap]
  simp only [List.map_map]
  rfl

theorem panelOf_size {ctx : Fitted ℝ} {ss : List (List String)} (h : forecastSeries ctx = ss) (fh : List τ) :
    size [ss.length, fh.length, 1] = (shownCells ctx fh).length := by
  have h1 := panelOf_wf ss fh fun _ _ => (0 : ℝ)
  have h2 := shownCells_panelOf h fh fun _ _ => (0 : ℝ)
  unfold Tensor.WF at h1
  rw [h2, List.length_map] at h1
  exact h1.symm

variable {F κ G Θ P H : Type}

/-- The fit of a forecaster object with contents `c` on the panel `y`, `X`: scale `s`, scaled target `ys`, fitted effects
`m`, learned parameters `θs`. -/
structure LearnedPanel (c : Contents (Option (PiecewiseState ℝ τ)) τ (Tensor ℝ) ℝ F κ G) (o : HierOpts τ ℝ)
    (Learned : ModelArgs (Tensor ℝ) ℝ → List (SiteEnv ℝ) → Prop) (y : Frame String τ ℝ) (X : Option (Frame String τ ℝ))
    (s : Scale ℝ) (ys : Frame String τ ℝ) (m : HierFit (Option (PiecewiseState ℝ τ)) (Scale ℝ) τ (Tensor ℝ) ℝ)
    (θs : List (SiteEnv ℝ)) : Prop where
  scaled : fitTarget c.discrete c.scale y = .ok (s, ys)
  fits : hierFitData (c.hierConfig o s (hierSeen o.keep ys X)) ys X = .ok m
  learned : Learned (hierCall m (some m.yArray) (m.trendData, m.data)) θs

/-- **C143**, written out: `predict_all_sites` of a fitted panel has one row for each bottom series and each date of the
horizon.  It shows the average over the learned parameters of the trend of that series, and for each effect the average of
coefficients times values: for a column that is not shared, the coefficient of the copy of that series times the value in
`X` for that series; in units of that series. -/
theorem C143_table (np : Numpyro κ G (ModelArgs (Tensor ℝ) ℝ) ℝ Θ P (Draws ℝ)) (horizon : List τ → H → List τ)
    {w : World (Option (PiecewiseState ℝ τ)) τ (Tensor ℝ) ℝ F κ G Θ P} {i : Nat}
    {fc : Fc (Option (PiecewiseState ℝ τ)) τ (Tensor ℝ) ℝ κ G Θ P} (hi : w.fcs[i]? = some fc)
    {c : Contents (Option (PiecewiseState ℝ τ)) τ (Tensor ℝ) ℝ F κ G} (hc : Resolves w.heap w.feats fc.cfg c)
    {o : HierOpts τ ℝ} (hh : c.hier = some o)
    {Learned : ModelArgs (Tensor ℝ) ℝ → List (SiteEnv ℝ) → Prop}
    (hnp : ∀ a draw, LearnedFrom np fc.cfg a draw → ∃ θs, Learned a θs ∧ RunsModel draw θs)
    (hV : ∀ s x0, ValidHier days p (c.hierConfig o s x0)) (hM : ∀ s x0, Modes mode (c.hierConfig o s x0))
    {y : Frame String τ ℝ} (hy : RegularPanel y) {ss : List (List String)} (hss : SeriesOf y ss)
    (hsq : ss.length ≠ 1 ∨ p.squeeze = false) {ts : List τ} (hts : DatesOf y ts)
    {X : Option (Frame String τ ℝ)} (hX : GivenExog X ss ts) (hn : PlainNames c.compile (givenCols X) o.shared ss)
    (hfit : (w.fit np i y X).1 = .ok ()) :
    ∃ s ys m θs st, LearnedPanel c o Learned y X s ys m θs ∧ m.trend.st.2 = some st ∧
      (∀ fe ∈ m.fitted, ∀ n ∈ fe.cols, ModelColumn (givenCols X) o.shared ss n) ∧
      ((∀ θ ∈ θs, PanelSites st.cps θ) →
        ∀ X₁ fh f, ((w.fit np i y X).2.predict np horizon i .allSites X₁ fh).1 = .ok (.allSites f) →
        (horizon y.times fh).Pairwise (· < ·) → GivenExog X₁ ss (horizon y.times fh) →
        (∀ c ∈ givenCols X, c ∈ givenCols X₁) →
        (∀ a t, (a, t) ∈ f.index ↔ a ∈ ss ∧ t ∈ horizon y.times fh) ∧
        ∃ val : List String → τ → String → ℝ,
          (∀ a ∈ ss, ∀ t ∈ horizon y.times fh, OwnCopies (givenCols X) o.shared X₁ ss a t (val a t)) ∧
          ∀ r ∈ f.rows, r.sid ∈ ss ∧ r.time ∈ horizon y.times fh ∧
            ∃ k, ScaleIs ⟨y.nlevels, m.internalIndex.map Prod.fst, true, c.discrete, s⟩ r.sid k ∧
              r.val "trend" = learnedMean θs (fun θ => panelTrendAt days st ss θ r.sid r.time) * k ∧
              ∀ fe ∈ kept m.fitted, r.val fe.name = learnedMean θs (fun θ =>
                combine (mode fe.name) (panelTrendAt days st ss θ r.sid r.time)
                  (Tensor.dot (fe.cols.map (val r.sid r.time)) (θ (fe.name ++ "/coefs")).data)) * k) := by
  obtain ⟨s, ys, m, θs, ht, hm, hl, hall⟩ := C143_components np horizon hi hc hh hnp hfit
  obtain ⟨σ, hys, -⟩ := fitTarget_frame ht
  obtain ⟨p1, p2, p3⟩ := mapVals_panel (y := y) fun s v => v / σ s
  rw [← hys] at p1 p2 p3
  set cfg := c.hierConfig o s (hierSeen o.keep ys X) with hcfg
  have hV' : ValidHier days p cfg := hV _ _
  have hM' : Modes mode cfg := hM _ _
  obtain ⟨m', x, st, hfit', h, yB, hlB, -, hser, -, -, -, -, -, hex, -⟩ :=
    hier_fits hV' (p1 hy) (p2 _ hss) (p3 _ hts) hX hn.compiles
  rw [hm] at hfit'
  cases hfit'
  obtain ⟨st', hst', hmc, -⟩ := C115_closed_form hV' hM' (p1 hy) (p2 _ hss) hsq (p3 _ hts) hX hn hm
  have hnd : ss.Nodup := hss.sorted.imp fun h => ne_of_lt h
  have hidx : m.internalIndex = (aggregate o.keep ys).index := by
    obtain ⟨-, -, -, -, -, h5, -⟩ := hierFitData_ok hm hex
    exact h5
  set ctx : Fitted ℝ := ⟨y.nlevels, m.internalIndex.map Prod.fst, true, c.discrete, s⟩ with hctx
  have hfs : forecastSeries ctx = ss := by
    rw [← hser]
    refine forecastSeries_regular o.keep (p1 hy) hlB ?_ rfl (by rw [← hidx])
    rw [hys]
    rfl
  refine ⟨s, ys, m, θs, st, ⟨ht, hm, hl⟩, h.state, hmc, fun hθs X₁ fh f hf hinc hX₁ hsub => ?_⟩
  obtain ⟨d, runs, hd, hruns, hperm, hrows⟩ := hall X₁ fh f hf
  obtain ⟨z, htd, hdata, hz⟩ := hier_table hV' h hX₁ hsub hd
  have hmem : ∀ a t, (a, t) ∈ shownCells ctx (horizon y.times fh) ↔ a ∈ ss ∧ t ∈ horizon y.times fh := by
    intro a t
    unfold shownCells
    rw [hfs]
    simp
  refine ⟨fun a t => by rw [hperm.mem_iff, hmem], cellAt z, ?_, ?_⟩
  · intro a ha t ht
    rcases hz with ⟨h0, -⟩ | ⟨est, X1, he, hsk, rfl, hr1, hzt, -⟩
    · rw [h0]
      exact ⟨by simp, by simp, by simp⟩
    · rcases h.exog with ⟨-, h2, -⟩ | ⟨X0, st0, rfl, hr, hst0, -, -, -⟩
      · rw [h2] at he; cases he
      · rw [hst0] at he
        cases he
        rw [hst0] at hex
        exact own_copies hn hsk (hier_matched hV' hr hn hex) hsub hr1 hzt ha ht
  intro r hr
  obtain ⟨q, k, hq, hk, hv⟩ := hrows r hr
  obtain ⟨hra, hrt⟩ := (hmem _ _).1 (List.mem_of_getElem? hq)
  have hsite : ∀ θ ∈ θs, ∀ run, computeMean (m.trend.cls.call m.trend.st) d.1 d.2 (callsOf m.objs) θ = .ok run → _ :=
    fun θ hθ run hrun => hier_sites (hier_modes hM' hm) hnd hsq h hinc
      (hz.imp And.right fun ⟨_, _, _, _, _, _, _, h⟩ => h) htd hdata (hθs θ hθ) hrun
  have hgen : ∀ (n : String) (g : SiteEnv ℝ → List String → τ → ℝ), (∀ θ ∈ θs, ∀ run,
      computeMean (m.trend.cls.call m.trend.st) d.1 d.2 (callsOf m.objs) θ = .ok run →
      run.sites.get? n = some (panelOf ss (horizon y.times fh) (g θ))) →
      r.val n = learnedMean θs (fun θ => g θ r.sid r.time) * k := by
    intro n g hg
    rw [hv n [ss.length, (horizon y.times fh).length, 1] (fun run hrun => by
      obtain ⟨θ, hθ, h1⟩ := forall₂_source hruns hrun
      exact ⟨_, hg θ hθ run h1, rfl, panelOf_wf _ _ _⟩) (by
        rw [panelOf_size hfs]
        exact (List.getElem?_eq_some_iff.1 hq).1), learnedMean, ← hruns.length_eq]
    congr 3
    refine forall₂_map_eq hruns fun θ hθ run hrun => ?_
    rw [hg θ hθ run hrun]
    simp only [Option.map_some, Option.getD_some]
    rw [shownCells_panelOf hfs, List.getD_eq_getElem?_getD, List.getElem?_map, hq]
    rfl
  exact ⟨hra, hrt, k, hk, hgen _ (fun θ => panelTrendAt days st ss θ) fun θ hθ run hrun => (hsite θ hθ run hrun).1,
    fun fe hfe => hgen _ (fun θ a t => combine (mode fe.name) (panelTrendAt days st ss θ a t)
      (Tensor.dot (fe.cols.map (cellAt z a t)) (θ (fe.name ++ "/coefs")).data))
      fun θ hθ run hrun => (hsite θ hθ run hrun).2.1 fe hfe⟩

/-- **C143**, what-if: of the rows that one fitted panel shows for a series and date, whatever else is asked for, the trend
is always the same, and so are all effects whenever the regressors of this series have the same values at that date; those
of other series do not matter. -/
theorem C143_what_if (np : Numpyro κ G (ModelArgs (Tensor ℝ) ℝ) ℝ Θ P (Draws ℝ)) (horizon : List τ → H → List τ)
    {w : World (Option (PiecewiseState ℝ τ)) τ (Tensor ℝ) ℝ F κ G Θ P} {i : Nat}
    {fc : Fc (Option (PiecewiseState ℝ τ)) τ (Tensor ℝ) ℝ κ G Θ P} (hi : w.fcs[i]? = some fc)
    {c : Contents (Option (PiecewiseState ℝ τ)) τ (Tensor ℝ) ℝ F κ G} (hc : Resolves w.heap w.feats fc.cfg c)
    {o : HierOpts τ ℝ} (hh : c.hier = some o)
    {Learned : ModelArgs (Tensor ℝ) ℝ → List (SiteEnv ℝ) → Prop}
    (hnp : ∀ a draw, LearnedFrom np fc.cfg a draw → ∃ θs, Learned a θs ∧ RunsModel draw θs)
    (hV : ∀ s x0, ValidHier days p (c.hierConfig o s x0)) (hM : ∀ s x0, Modes mode (c.hierConfig o s x0))
    {y : Frame String τ ℝ} (hy : RegularPanel y) {ss : List (List String)} (hss : SeriesOf y ss)
    (hsq : ss.length ≠ 1 ∨ p.squeeze = false) {ts : List τ} (hts : DatesOf y ts)
    {X : Option (Frame String τ ℝ)} (hX : GivenExog X ss ts) (hn : PlainNames c.compile (givenCols X) o.shared ss)
    (hfit : (w.fit np i y X).1 = .ok ()) :
    ∃ s ys m θs st, LearnedPanel c o Learned y X s ys m θs ∧ m.trend.st.2 = some st ∧
      ((∀ θ ∈ θs, PanelSites st.cps θ) →
        ∀ X₁ X₂ fh₁ fh₂ f₁ f₂,
          ((w.fit np i y X).2.predict np horizon i .allSites X₁ fh₁).1 = .ok (.allSites f₁) →
          ((w.fit np i y X).2.predict np horizon i .allSites X₂ fh₂).1 = .ok (.allSites f₂) →
          (horizon y.times fh₁).Pairwise (· < ·) → (horizon y.times fh₂).Pairwise (· < ·) →
          GivenExog X₁ ss (horizon y.times fh₁) → GivenExog X₂ ss (horizon y.times fh₂) →
          (∀ c ∈ givenCols X, c ∈ givenCols X₁) → (∀ c ∈ givenCols X, c ∈ givenCols X₂) →
          ∀ r₁ ∈ f₁.rows, ∀ r₂ ∈ f₂.rows, r₁.sid = r₂.sid → r₁.time = r₂.time →
            r₁.val "trend" = r₂.val "trend" ∧
            (SameRegressors (givenCols X) X₁ X₂ r₁.sid r₁.time r₁.time →
              ∀ fe ∈ kept m.fitted, r₁.val fe.name = r₂.val fe.name)) := by
  obtain ⟨s, ys, m, θs, st, hl, hst, hmc, hall⟩ := C143_table np horizon hi hc hh hnp hV hM hy hss hsq hts hX hn hfit
  refine ⟨s, ys, m, θs, st, hl, hst, fun hθ X₁ X₂ fh₁ fh₂ f₁ f₂ hf₁ hf₂ hi₁ hi₂ hX₁ hX₂ hc₁ hc₂ r₁ hr₁ r₂ hr₂ he ht => ?_⟩
  obtain ⟨-, v, hv, h1⟩ := hall hθ X₁ fh₁ f₁ hf₁ hi₁ hX₁ hc₁
  obtain ⟨-, u, hu, h2⟩ := hall hθ X₂ fh₂ f₂ hf₂ hi₂ hX₂ hc₂
  obtain ⟨ha, hta, k, hk, htr, hfe⟩ := h1 r₁ hr₁
  obtain ⟨-, htb, k', hk', htr', hfe'⟩ := h2 r₂ hr₂
  rw [← he] at hk' htr' hfe'
  rw [← ht] at htb htr' hfe'
  cases hk.unique hk'
  refine ⟨by rw [htr, htr'], fun hx fe hk => ?_⟩
  rw [hfe fe hk, hfe' fe hk, List.map_congr_left fun n hnn => sameRegressors_val (hv _ ha _ hta) (hu _ ha _ htb) hx
    (hmc fe (List.mem_of_mem_filter hk) n hnn)]

/-- **C143**, past the history: the trend shown for each series follows one line, whichever horizons and regressors are
asked for; its slope per step is the average over the learned parameters of the sum of the coefficients of that series
alone, in its units. -/
theorem C143_line (np : Numpyro κ G (ModelArgs (Tensor ℝ) ℝ) ℝ Θ P (Draws ℝ)) (horizon : List τ → H → List τ)
    {w : World (Option (PiecewiseState ℝ τ)) τ (Tensor ℝ) ℝ F κ G Θ P} {i : Nat}
    {fc : Fc (Option (PiecewiseState ℝ τ)) τ (Tensor ℝ) ℝ κ G Θ P} (hi : w.fcs[i]? = some fc)
    {c : Contents (Option (PiecewiseState ℝ τ)) τ (Tensor ℝ) ℝ F κ G} (hc : Resolves w.heap w.feats fc.cfg c)
    {o : HierOpts τ ℝ} (hh : c.hier = some o)
    {Learned : ModelArgs (Tensor ℝ) ℝ → List (SiteEnv ℝ) → Prop}
    (hnp : ∀ a draw, LearnedFrom np fc.cfg a draw → ∃ θs, Learned a θs ∧ RunsModel draw θs)
    (hV : ∀ s x0, ValidHier days p (c.hierConfig o s x0)) (hM : ∀ s x0, Modes mode (c.hierConfig o s x0))
    {y : Frame String τ ℝ} (hy : RegularPanel y) {ss : List (List String)} (hss : SeriesOf y ss)
    (hsq : ss.length ≠ 1 ∨ p.squeeze = false) {ts : List τ} (hts : DatesOf y ts)
    (hr : ∀ r, p.range = .scalar r → r ≤ (ts.length : ℝ) - 1)
    {X : Option (Frame String τ ℝ)} (hX : GivenExog X ss ts) (hn : PlainNames c.compile (givenCols X) o.shared ss)
    (hfit : (w.fit np i y X).1 = .ok ()) :
    ∃ s ys m θs st, LearnedPanel c o Learned y X s ys m θs ∧ m.trend.st.2 = some st ∧
      ((∀ θ ∈ θs, PanelSites st.cps θ) →
        ∀ X₁ X₂ fh₁ fh₂ f₁ f₂,
          ((w.fit np i y X).2.predict np horizon i .allSites X₁ fh₁).1 = .ok (.allSites f₁) →
          ((w.fit np i y X).2.predict np horizon i .allSites X₂ fh₂).1 = .ok (.allSites f₂) →
          (horizon y.times fh₁).Pairwise (· < ·) → (horizon y.times fh₂).Pairwise (· < ·) →
          GivenExog X₁ ss (horizon y.times fh₁) → GivenExog X₂ ss (horizon y.times fh₂) →
          (∀ c ∈ givenCols X, c ∈ givenCols X₁) → (∀ c ∈ givenCols X, c ∈ givenCols X₂) →
          ∀ r₁ ∈ f₁.rows, ∀ r₂ ∈ f₂.rows, r₁.sid = r₂.sid → (∀ u ∈ ts, u ≤ r₁.time) → (∀ u ∈ ts, u ≤ r₂.time) →
            ∃ k, ScaleIs ⟨y.nlevels, m.internalIndex.map Prod.fst, true, c.discrete, s⟩ r₁.sid k ∧
              r₂.val "trend" - r₁.val "trend" = learnedMean θs (fun θ => ownSlope st ss θ r₁.sid)
                * ((days r₂.time - days r₁.time) / dayStep (ts.map days)) * k) := by
  obtain ⟨s, ys, m, θs, st, hl, hst, -, hall⟩ := C143_table np horizon hi hc hh hnp hV hM hy hss hsq hts hX hn hfit
  refine ⟨s, ys, m, θs, st, hl, hst, fun hθ X₁ X₂ fh₁ fh₂ f₁ f₂ hf₁ hf₂ hi₁ hi₂ hX₁ hX₂ hc₁ hc₂ r₁ hr₁ r₂ hr₂ he
    ht₁ ht₂ => ?_⟩
  obtain ⟨-, v, -, h1⟩ := hall hθ X₁ fh₁ f₁ hf₁ hi₁ hX₁ hc₁
  obtain ⟨-, u, -, h2⟩ := hall hθ X₂ fh₂ f₂ hf₂ hi₂ hX₂ hc₂
  obtain ⟨ha, -, k, hk, htr, -⟩ := h1 r₁ hr₁
  obtain ⟨-, -, k', hk', htr', -⟩ := h2 r₂ hr₂
  rw [← he] at hk' htr'
  cases hk.unique hk'
  obtain ⟨σ, hys, -⟩ := fitTarget_frame hl.scaled
  obtain ⟨p1, p2, p3⟩ := mapVals_panel (y := y) fun s v => v / σ s
  rw [← hys] at p1 p2 p3
  have hline : ∀ θ ∈ θs, panelTrendAt days st ss θ r₁.sid r₂.time - panelTrendAt days st ss θ r₁.sid r₁.time
      = ownSlope st ss θ r₁.sid * ((days r₂.time - days r₁.time) / dayStep (ts.map days)) := fun θ h =>
    panel_far_line (hV _ _) (p1 hy) (p2 _ hss) (p3 _ hts) hr hX hn.compiles hl.fits hst (hθ θ h) ha ht₁ ht₂
  refine ⟨k, hk, ?_⟩
  rw [htr, htr', ← sub_mul, learnedMean_sub]
  congr 1
  unfold learnedMean
  rw [List.map_congr_left hline, List.sum_map_mul_right]
  ring

/-! ## `fit` returns -/

/-- Without a scale of the user, a panel can always be scaled. -/
theorem fitTarget_panel {y : Frame String τ ℝ} (hy : RegularPanel y) : ∃ s ys, fitTarget false none y = .ok (s, ys) := by
  obtain ⟨c, hc⟩ := hy.column
  obtain ⟨r, hr, -⟩ := hy.bottom
  obtain ⟨s, ys, h1, h2⟩ := (C02_accepts_partial hc (List.ne_nil_of_mem hr)).1.2 (.inl (by have := hy.levels; omega))
  refine ⟨s, ys, ?_⟩
  unfold fitTarget
  rw [h1]
  simp only [Bind.bind, Except.bind, h2]
  rfl

/-- **C143**: `fit` of a regular panel never fails before inference: it returns what inference does with the arrays of
the training. -/
theorem C143_fits (np : Numpyro κ G (ModelArgs (Tensor ℝ) ℝ) ℝ Θ P (Draws ℝ))
    {w : World (Option (PiecewiseState ℝ τ)) τ (Tensor ℝ) ℝ F κ G Θ P} {i : Nat}
    {fc : Fc (Option (PiecewiseState ℝ τ)) τ (Tensor ℝ) ℝ κ G Θ P} (hi : w.fcs[i]? = some fc)
    {c : Contents (Option (PiecewiseState ℝ τ)) τ (Tensor ℝ) ℝ F κ G} (hc : Resolves w.heap w.feats fc.cfg c)
    {o : HierOpts τ ℝ} (hh : c.hier = some o) (hd : c.discrete = false) (hs : c.scale = none)
    (hV : ∀ s x0, ValidHier days p (c.hierConfig o s x0))
    {y : Frame String τ ℝ} (hy : RegularPanel y) {ss : List (List String)} (hss : SeriesOf y ss)
    {ts : List τ} (hts : DatesOf y ts) {X : Option (Frame String τ ℝ)} (hX : GivenExog X ss ts)
    (hcomp : ∀ n ∈ givenCols X, n ∉ o.shared → ∃ q, c.compile n = .ok q) :
    ∃ s ys m, fitTarget c.discrete c.scale y = .ok (s, ys) ∧
      hierFitData (c.hierConfig o s (hierSeen o.keep ys X)) ys X = .ok m ∧
      (w.fit np i y X).1 = (valInfer np c (hierCall m (some m.yArray) (m.trendData, m.data))).1 := by
  obtain ⟨s, ys, ht⟩ := fitTarget_panel hy
  rw [← hd, ← hs] at ht
  obtain ⟨σ, hys, -⟩ := fitTarget_frame ht
  obtain ⟨p1, p2, p3⟩ := mapVals_panel (y := y) fun s v => v / σ s
  rw [← hys] at p1 p2 p3
  obtain ⟨m, x, st, hm, -⟩ := hier_fits (hV s (hierSeen o.keep ys X)) (p1 hy) (p2 _ hss) (p3 _ hts) hX hcomp
  obtain ⟨h1, -⟩ := fit_sim np hi hc y X
  have hp := valPrepare_eq c y X
  rw [ht] at hp
  simp only [valPrepareScaled, hh, hm] at hp
  refine ⟨s, ys, m, ht, hm, ?_⟩
  rw [h1, valFit, hp]
  rfl

/-! ## A case: the panel of `C113`'s example as an object -/

/-- The options of a panel. -/
def exOpts143 : HierOpts ℤ ℝ :=
  { order := id, keep := fun _ => true, shared := [], levels := fun _ => [["__total", "p", "q"]] }

/-- The constructor arguments; the effect is the object 0. -/
def exConfig143 : FcConfig (Option (PiecewiseState ℝ ℤ)) ℤ (Tensor ℝ) ℝ Nat Unit :=
  { compile := exCfg113.compile, trend := .named exCfg113.trend, effects := [("e", 0, some ".*")], default := none
    linear := exCfg113.default, features := none
    hier := some exOpts143
    discrete := false, scale := none, rngKey := none, method := "map", settings := () }

/-- The contents of the objects. -/
def exContents143 : Contents (Option (PiecewiseState ℝ ℤ)) ℤ (Tensor ℝ) ℝ Unit Nat Unit :=
  { compile := exCfg113.compile, trend := exCfg113.trend, effects := exCfg113.effects, default := exCfg113.default
    features := none
    hier := some exOpts143
    discrete := false, scale := none, rngKey := none, method := "map", settings := () }

/-- The objects. -/
def exWorld143 : World (Option (PiecewiseState ℝ ℤ)) ℤ (Tensor ℝ) ℝ Unit Nat Unit Unit Unit :=
  { heap := [(linearClass "multiplicative").new], feats := [], samples := none
    fcs := [⟨exConfig143, none, none, none, false⟩] }

theorem exRuns143 (θ : SiteEnv ℝ) (a : ModelArgs (Tensor ℝ) ℝ) (draw : ModelArgs (Tensor ℝ) ℝ → PyM (Draws ℝ))
    (h : LearnedFrom (exNumpyro142 θ) exConfig143 a draw) : ∃ θs, θs = [θ, θ] ∧ RunsModel draw θs :=
  exNumpyro142_runs .linear θ a draw (by
    rcases h with ⟨h1, h2⟩ | ⟨h1, h2⟩
    · exact .inl ⟨h1, h2⟩
    · exact .inr ⟨h1, h2⟩)

theorem exResolves143 : Resolves exWorld143.heap exWorld143.feats exConfig143 exContents143 :=
  HasContents.resolves ⟨rfl, rfl, .cons ⟨rfl, rfl, _, rfl, rfl⟩ .nil, rfl, trivial, rfl, rfl, rfl, rfl, rfl, rfl⟩

/-- Parameters with the sizes of a trend with changepoints `cps`. -/
def exSizes143 (cps : List (List ℝ)) : SiteEnv ℝ := fun n =>
  if n = "offset" then ⟨[cps.length], List.replicate cps.length 1⟩
  else ⟨[(cps.map List.length).sum], List.replicate (cps.map List.length).sum 2⟩

/-- `fit` returns, the parameters found have the sizes of the trend, and the slopes of both series are defined by them. -/
example : ∃ (θ : SiteEnv ℝ) (s : Scale ℝ) (ys : Frame String ℤ ℝ)
    (m : HierFit (Option (PiecewiseState ℝ ℤ)) (Scale ℝ) ℤ (Tensor ℝ) ℝ) (θs : List (SiteEnv ℝ)) (st : PiecewiseState ℝ ℤ),
    (exWorld143.fit (exNumpyro142 θ) 0 exY113 (some exX113)).1 = .ok () ∧
    LearnedPanel exContents143 exOpts143 (fun _ θs => θs = [θ, θ]) exY113 (some exX113) s ys m θs ∧
      m.trend.st.2 = some st ∧ ∀ θ ∈ θs, PanelSites st.cps θ := by
  have hX := exExog113 (ts := [0, 1]) (by simp) (by simp) (by simp)
  have hV : ∀ s x0, ValidHier (fun t : ℤ => (t : ℝ)) exP113 (exContents143.hierConfig
      exOpts143 s x0) :=
    fun s x0 => { exValid113 with fitFeatures := rfl, features := rfl }
  have hM : ∀ s x0, Modes (fun n => if n = "e" then "multiplicative" else "additive") (exContents143.hierConfig
      exOpts143 s x0) :=
    fun s x0 => { exModes113 with }
  have hfit : ∀ θ, (exWorld143.fit (exNumpyro142 θ) 0 exY113 (some exX113)).1 = .ok () := by
    intro θ
    obtain ⟨s, ys, m, -, -, h⟩ := C143_fits (exNumpyro142 θ) (w := exWorld143) (i := 0) rfl exResolves143 rfl rfl rfl hV
      exPanel113 exSeries113 exDates113 hX exPlain115.compiles
    rw [h]
    rfl
  obtain ⟨s₀, ys₀, m₀, θs₀, st₀, ⟨h1, h2, -⟩, h3, -⟩ := C143_line (exNumpyro142 (exSizes143 [])) (fun _ (fh : List ℤ) => fh)
    (w := exWorld143) (i := 0) rfl exResolves143 rfl (exRuns143 _) hV hM exPanel113 exSeries113 (.inl (by simp)) exDates113
    (by
      intro r hr
      simp only [exP113, ScalarOr.scalar.injEq] at hr
      rw [← hr]
      norm_num) hX exPlain115 (hfit _)
  obtain ⟨s, ys, m, θs, st, hl, hst, -⟩ := C143_line (exNumpyro142 (exSizes143 st₀.cps)) (fun _ (fh : List ℤ) => fh)
    (w := exWorld143) (i := 0) rfl exResolves143 rfl (exRuns143 _) hV hM exPanel113 exSeries113 (.inl (by simp)) exDates113
    (by
      intro r hr
      simp only [exP113, ScalarOr.scalar.injEq] at hr
      rw [← hr]
      norm_num) hX exPlain115 (hfit _)
  refine ⟨exSizes143 st₀.cps, s, ys, m, θs, st, hfit _, hl, hst, ?_⟩
  obtain ⟨g1, g2, rfl⟩ := hl
  rw [g1] at h1
  cases h1
  rw [g2] at h2
  cases h2
  rw [hst] at h3
  cases h3
  intro θ hθ
  have : θ = exSizes143 st₀.cps := by simpa using hθ
  rw [this]
  simp [PanelSites, exSizes143]

end
end PV
