import Verif.Props.PanelTable
import Verif.Props.ShownFit
import Verif.Props.PanelPenalised

/-!
# C143: a fitted panel can show its components for every horizon
-/

set_option linter.unusedSectionVars false

namespace PV
open Tensor
section
variable {τ F κ G Θ P H : Type} [LinearOrder τ] {days : τ → ℝ} {p : PiecewiseParams ℝ τ} {mode : String → String}

/-- The table of a panel is made if all sites have one entry per series and date. -/
theorem predictAllSites_panel {discrete : Bool} {user : Option (Scale ℝ)} {y ys : Frame String τ ℝ} {s : Scale ℝ}
    (h : fitTarget discrete user y = .ok (s, ys)) (hy : y.nlevels ≠ 1) {sids : List (List String)} {b : Bool}
    (hne : forecastSeries (⟨y.nlevels, sids, b, discrete, s⟩ : Fitted ℝ) ≠ [])
    (hss : ∀ a ∈ forecastSeries (⟨y.nlevels, sids, b, discrete, s⟩ : Fitted ℝ), ∃ r ∈ y.rows, r.sid = a)
    {sites : PyDict (Tensor ℝ)} {S : Nat} {fh : List τ} (hs : ∀ q ∈ sites, ∃ sh, q.2.shape = S :: sh ∧
      size sh = (shownCells (⟨y.nlevels, sids, b, discrete, s⟩ : Fitted ℝ) fh).length) :
    ∃ f, predictAllSites ⟨y.nlevels, sids, b, discrete, s⟩ sites fh = .ok f := by
  set ctx : Fitted ℝ := ⟨y.nlevels, sids, b, discrete, s⟩ with hctx
  have hidx : periodindexToMultiindex ctx fh = .ok (product (forecastSeries ctx) fh) := by
    have hex : ∃ idx, periodindexToMultiindex ctx fh = .ok idx := by
      unfold periodindexToMultiindex
      rw [if_neg hy]
      cases hu : unique ctx.internalSids with
      | nil =>
        refine absurd ?_ hne
        unfold forecastSeries
        rw [if_neg hy, hu]
        rfl
      | cons a l => exact ⟨_, rfl⟩
    obtain ⟨idx, hidx⟩ := hex
    rw [hidx, periodindex_eq hidx]
  have hinv : ∀ g : Frame String τ ℝ, g.nlevels = y.nlevels → (∀ r ∈ g.rows, r.sid ∈ forecastSeries ctx) →
      ∃ f, invScaleY discrete s g = .ok f := by
    intro g hl hg
    obtain ⟨σ, -, hσ⟩ := fitTarget_frame h
    unfold invScaleY
    cases hd : discrete with
    | true => exact ⟨_, rfl⟩
    | false =>
      subst hd
      have hrs : ∃ ss, rowScales s g = .ok ss := by
        cases hsc : s with
        | float v => exact ⟨_, rfl⟩
        | int v =>
          obtain ⟨a, ha⟩ := List.exists_mem_of_ne_nil _ hne
          obtain ⟨r, hr, -⟩ := hss a ha
          rcases hσ r hr with ⟨h1, -⟩ | ⟨-, h1⟩ | ⟨-, -, e, h1, -⟩
          · cases h1
          · rw [hsc] at h1; cases h1
          · rw [hsc] at h1; cases h1
        | table e =>
          refine ⟨g.rows.map fun r => σ r.sid, ?_⟩
          unfold rowScales
          simp only
          rw [if_neg (by rw [hl]; exact hy)]
          refine mapM_ok_of_forall fun r hr => ?_
          obtain ⟨r', hr', he⟩ := hss _ (hg r hr)
          rcases hσ r' hr' with ⟨h1, -⟩ | ⟨-, h1⟩ | ⟨-, -, e', h1, h2⟩
          · cases h1
          · rw [hsc] at h1; cases h1
          · rw [hsc] at h1
            cases h1
            rw [he] at h2
            simp only [lookupScale, h2]
            rfl
      obtain ⟨ss, hss⟩ := hrs
      simp only [hss, Bind.bind, Except.bind]
      exact ⟨_, rfl⟩
  unfold predictAllSites
  simp only [hidx, Bind.bind, Except.bind]
  rw [if_pos]
  · refine hinv _ rfl fun r hr => ?_
    have hr := (sortIndex_perm _).mem_iff.1 hr
    obtain ⟨i, hi, rfl⟩ := List.mem_iff_getElem.1 hr
    have hmem := List.getElem_mem (l := product (forecastSeries ctx) fh) (n := i) (by simpa using hi)
    simp only [List.getElem_zipWith]
    unfold product at hmem ⊢
    obtain ⟨a, ha, hb⟩ := List.mem_flatMap.1 hmem
    obtain ⟨t, -, he⟩ := List.mem_map.1 hb
    rw [← he]
    exact ha
  · intro q hq
    obtain ⟨q', hq', rfl⟩ := List.mem_map.1 hq
    obtain ⟨sh, h1, h2⟩ := hs q' hq'
    have := length_meanAxis0 h1
    rw [h2] at this
    simp only [flatten]
    rw [this]
    rfl

/-- **C143**: if the model can be run at the learned parameters, `predict_all_sites` of a fitted panel returns, for every
horizon for which `X` has the columns of the training data and a row for every series and date, a table with a row for
every bottom series and date. -/
theorem C143_answers (np : Numpyro κ G (ModelArgs (Tensor ℝ) ℝ) ℝ Θ P (Draws ℝ)) (horizon : List τ → H → List τ)
    {w : World (Option (PiecewiseState ℝ τ)) τ (Tensor ℝ) ℝ F κ G Θ P} {i : Nat}
    {fc : Fc (Option (PiecewiseState ℝ τ)) τ (Tensor ℝ) ℝ κ G Θ P} (hi : w.fcs[i]? = some fc)
    {c : Contents (Option (PiecewiseState ℝ τ)) τ (Tensor ℝ) ℝ F κ G} (hc : Resolves w.heap w.feats fc.cfg c)
    {o : HierOpts τ ℝ} (hh : c.hier = some o)
    {Learned : ModelArgs (Tensor ℝ) ℝ → List (SiteEnv ℝ) → Prop}
    (hnp : ∀ a draw, LearnedFrom np fc.cfg a draw → ∃ θs, Learned a θs ∧ RecordsSites draw θs)
    (hV : ∀ s x0, ValidHier days p (c.hierConfig o s x0)) (hM : ∀ s x0, Modes mode (c.hierConfig o s x0))
    {y : Frame String τ ℝ} (hy : RegularPanel y) {ss : List (List String)} (hss : SeriesOf y ss)
    (hsq : ss.length ≠ 1 ∨ p.squeeze = false) {ts : List τ} (hts : DatesOf y ts) (hlev : LevelsOf y (o.levels y))
    {X : Option (Frame String τ ℝ)} (hX : GivenExog X ss ts)
    (hcomp : ∀ n ∈ givenCols X, n ∉ o.shared → ∃ q, c.compile n = .ok q)
    (hfit : (w.fit np i y X).1 = .ok ()) :
    ∃ s ys m θs st, LearnedPanel c o Learned y X s ys m θs ∧ m.trend.st.2 = some st ∧
      ((∀ θ ∈ θs, HierSizes st m θ) →
        ∀ X₁ fh, (horizon y.times fh).Pairwise (· < ·) → horizon y.times fh ≠ [] →
          GivenExog X₁ ss (horizon y.times fh) → (∀ n ∈ givenCols X, n ∈ givenCols X₁) →
          ∃ f, ((w.fit np i y X).2.predict np horizon i .allSites X₁ fh).1 = .ok (.allSites f) ∧
            ∀ a t, (a, t) ∈ f.index ↔ a ∈ ss ∧ t ∈ horizon y.times fh) := by
  obtain ⟨s, ys, m, draw, ht, hm, hl, hpred⟩ := C140_hierarchical np horizon hi hc hh hfit
  obtain ⟨θs, hne, hθs⟩ := hnp _ _ hl
  obtain ⟨σ, hys, -⟩ := fitTarget_frame ht
  obtain ⟨p1, p2, p3⟩ := mapVals_panel (y := y) fun s v => v / σ s
  rw [← hys] at p1 p2 p3
  set cfg := c.hierConfig o s (hierSeen o.keep ys X) with hcfg
  have hV' : ValidHier days p cfg := hV _ _
  have hM' : Modes mode cfg := hM _ _
  obtain ⟨m', x, st, hfit', h, yB, hlB, -, hser, -, -, -, -, -, hex, -⟩ :=
    hier_fits hV' (p1 hy) (p2 _ hss) (p3 _ hts) hX hcomp
  rw [hm] at hfit'
  cases hfit'
  obtain ⟨st', hst', -, hF⟩ := C113_forecasts hV' (p1 hy) (p2 _ hss) hsq (p3 _ hts) hX hcomp hm
  rw [h.state] at hst'
  cases hst'
  have hnd : ss.Nodup := hss.sorted.imp fun h => ne_of_lt h
  have hidx : m.internalIndex = (aggregate o.keep ys).index := by
    obtain ⟨-, -, -, -, -, h5, -⟩ := hierFitData_ok hm hex
    exact h5
  set ctx : Fitted ℝ := ⟨y.nlevels, m.internalIndex.map Prod.fst, true, c.discrete, s⟩ with hctx
  have hfs : forecastSeries ctx = ss := by
    rw [← hser]
    refine forecastSeries_regular o.keep (p1 hy) hlB ?_ rfl (by rw [← hidx])
    rw [hys]
    rfl
  refine ⟨s, ys, m, θs, st, ⟨ht, hm, hne⟩, h.state, fun hz X₁ fh hinc hne' hX₁ hsub => ?_⟩
  obtain ⟨td, data, hd, hrun⟩ := hF y (o.levels y) X₁ _ hy hlev hinc hne' hX₁ hsub
  obtain ⟨runs, hruns⟩ := forall₂_exists (R := fun θ st => computeMean (m.trend.cls.call m.trend.st) td data
    (callsOf m.objs) θ = .ok st) (l := θs) fun θ hθ => (hrun θ (hz θ hθ)).imp fun _ h => h.1
  obtain ⟨z, htd, hdata, hzt⟩ := hier_table hV' h hX₁ hsub hd
  obtain ⟨r, hr, hsh⟩ := hθs (hierCall m none (td, data)) runs [ss.length, (horizon y.times fh).length, 1] hruns (by
    intro st' hst'
    obtain ⟨θ, hθ, h1⟩ := forall₂_source hruns hst'
    refine ⟨?_, (hier_sites (hier_modes hM' hm) hnd hsq h hinc
      (hzt.imp And.right fun ⟨_, _, _, _, _, _, _, h⟩ => h) htd hdata (hz θ hθ).trend h1).2.2⟩
    obtain ⟨st₂, h2, h3, -⟩ := hrun θ (hz θ hθ)
    rw [h1] at h2
    cases h2
    exact h3)
  obtain ⟨f, hf⟩ := predictAllSites_panel ht (by have := hy.levels; omega) (sids := m.internalIndex.map Prod.fst) (b := true)
    (fh := horizon y.times fh) (sites := r) (S := θs.length)
    (by
      show forecastSeries ctx ≠ []
      rw [hfs]
      exact h.panel.someSeries)
    (by
      intro a ha
      have ha : a ∈ forecastSeries ctx := ha
      rw [hfs] at ha
      obtain ⟨-, r, hr, he⟩ := ((hss.mem a).1 ha)
      exact ⟨r, hr, he⟩)
    (fun q hq => (hsh q hq).imp fun _ h => ⟨h.1, by rw [h.2]; exact panelOf_size hfs _⟩)
  refine ⟨f, ?_, ?_⟩
  · rw [hpred, hd]
    simp only [Except.bind, hr, Query.answer, Bind.bind, pure, Except.pure]
    rw [hf]
  · intro a t
    obtain ⟨-, hperm, -⟩ := predictAllSites_rows hf
    have hfs' : forecastSeries (⟨y.nlevels, m.internalIndex.map Prod.fst, true, c.discrete, s⟩ : Fitted ℝ) = ss := hfs
    rw [hperm.mem_iff, hfs']
    simp [product]

/-- There are parameters of the right sizes for every fitted panel. -/
theorem centre_sizes {ss : List (List String)} {ts : List τ} {X : Option (Frame String τ ℝ)}
    {m : HierFit (Option (PiecewiseState ℝ τ)) (Scale ℝ) τ (Tensor ℝ) ℝ} {x : Frame String τ ℝ} {s : PiecewiseState ℝ τ}
    (h : HierFitted days p ss ts X m x s) (std corr : Tensor ℝ) :
    HierSizes s m (centreSites ss.length (s.cps.map List.length).sum (List.replicate ss.length 0)
      (m.fitted.map fun fe => (fe.name, fe.cols.length)) std corr) := by
  refine ⟨⟨by simp [centreSites, h.changepoints], by simp [centreSites]⟩, fun fe hfe _ => ?_⟩
  have hf : (m.fitted.map fun fe => (fe.name, fe.cols.length)).find?
      (fun q => q.1 ++ "/coefs" = fe.name ++ "/coefs") = some (fe.name, fe.cols.length) := by
    cases hq : (m.fitted.map fun fe => (fe.name, fe.cols.length)).find?
        (fun q => q.1 ++ "/coefs" = fe.name ++ "/coefs") with
    | none =>
      have := List.find?_eq_none.1 hq (fe.name, fe.cols.length) (List.mem_map.2 ⟨fe, hfe, rfl⟩)
      simp at this
    | some q =>
      have k1 := List.find?_some hq
      obtain ⟨fe', hfe', rfl⟩ := List.mem_map.1 (List.mem_of_find?_eq_some hq)
      have k2 : fe'.name = fe.name := coefs_inj (by simpa using k1)
      have k3 : fe' = fe := List.inj_on_of_nodup_map h.nodup hfe' hfe k2
      rw [k3]
  simp only [centreSites]
  rw [if_neg (coefs_ne (by decide)), if_neg (coefs_ne (by decide)), if_neg (coefs_ne (by decide)),
    if_neg (coefs_ne (by decide)), hf]
  simp

end

/-! ## A case -/

theorem exRecords143 (θ : SiteEnv ℝ) (a : ModelArgs (Tensor ℝ) ℝ) (draw : ModelArgs (Tensor ℝ) ℝ → PyM (Draws ℝ))
    (h : LearnedFrom (exNumpyro142 θ) exConfig143 a draw) : ∃ θs, θs = [θ, θ] ∧ RecordsSites draw θs := by
  refine ⟨_, rfl, ?_⟩
  rcases h with ⟨-, run, loss, -, -, rfl⟩ | ⟨h, -⟩
  · intro a runs sh hr hs
    cases hr with
    | @cons _ st _ _ h1 _ =>
    refine ⟨_, by simp only [exNumpyro142, h1, bind, Except.bind]; rfl, fun q hq => ?_⟩
    obtain ⟨q', hq', rfl⟩ := List.mem_map.1 hq
    have := ((hs st (by simp)).2 q' hq').1
    exact ⟨sh, by simp [predictiveSite, this], rfl⟩
  · exact absurd h (by simp [exConfig143])

theorem exLevels143 : LevelsOf exY113 (exOpts143.levels exY113) :=
  ⟨rfl, by
    intro r hr
    simp only [exY113, List.map_cons, List.map_nil, List.mem_cons, List.not_mem_nil, or_false] at hr
    rcases hr with rfl | rfl | rfl | rfl | rfl | rfl <;> simp [exOpts143]⟩

theorem exValid143 (s : Scale ℝ) (x0 : PyM (Frame String ℤ ℝ)) :
    ValidHier (fun t : ℤ => (t : ℝ)) exP113 (exContents143.hierConfig exOpts143 s x0) :=
  { exValid113 with fitFeatures := rfl, features := rfl }

theorem exModes143 (s : Scale ℝ) (x0 : PyM (Frame String ℤ ℝ)) :
    Modes (fun n => if n = "e" then "multiplicative" else "additive") (exContents143.hierConfig exOpts143 s x0) :=
  { exModes113 with }

theorem exFit143 (θ : SiteEnv ℝ) : (exWorld143.fit (exNumpyro142 θ) 0 exY113 (some exX113)).1 = .ok () := by
  have hX := exExog113 (ts := [0, 1]) (by simp) (by simp) (by simp)
  obtain ⟨s, ys, m, -, -, h⟩ := C143_fits (exNumpyro142 θ) (w := exWorld143) (i := 0) rfl exResolves143 rfl rfl rfl
    exValid143 exPanel113 exSeries113 exDates113 hX exPlain115.compiles
  rw [h]
  rfl

/-- The fitted panel shows its components for the dates 2 and 3. -/
example : ∃ (θ : SiteEnv ℝ) (f : Frame String ℤ ℝ), (exWorld143.fit (exNumpyro142 θ) 0 exY113 (some exX113)).1 = .ok () ∧
    ((exWorld143.fit (exNumpyro142 θ) 0 exY113 (some exX113)).2.predict (exNumpyro142 θ) (fun _ (fh : List ℤ) => fh) 0
      .allSites (some exX113) [2, 3]).1 = .ok (.allSites f) ∧
    ∀ a t, (a, t) ∈ f.index ↔ a ∈ [["p"], ["q"]] ∧ t ∈ [2, 3] := by
  have hX := exExog113 (ts := [0, 1]) (by simp) (by simp) (by simp)
  have hA := fun θ => C143_answers (exNumpyro142 θ) (fun _ (fh : List ℤ) => fh) (w := exWorld143) (i := 0) rfl
    exResolves143 rfl (exRecords143 θ) exValid143 exModes143 exPanel113 exSeries113 (.inl (by simp)) exDates113 exLevels143
    hX exPlain115.compiles (exFit143 θ)
  obtain ⟨s₀, ys₀, m₀, θs₀, st₀, ⟨h1, h2, -⟩, h3, -⟩ := hA fun _ => ⟨[], []⟩
  have hsz : ∃ θ, HierSizes st₀ m₀ θ := by
    obtain ⟨σ, hys, -⟩ := fitTarget_frame h1
    obtain ⟨p1, p2, p3⟩ := mapVals_panel (y := exY113) fun s v => v / σ s
    rw [← hys] at p1 p2 p3
    obtain ⟨m', x, st, hfit', h, -⟩ := hier_fits (exValid143 s₀ (hierSeen exOpts143.keep ys₀ (some exX113)))
      (p1 exPanel113) (p2 _ exSeries113) (p3 _ exDates113) hX exPlain115.compiles
    rw [h2] at hfit'
    cases hfit'
    rw [h.state] at h3
    cases h3
    exact ⟨_, centre_sizes h ⟨[], []⟩ ⟨[], []⟩⟩
  obtain ⟨θ, hθ⟩ := hsz
  obtain ⟨s, ys, m, θs, st, ⟨g1, g2, rfl⟩, g3, hans⟩ := hA θ
  rw [h1] at g1
  cases g1
  rw [h2] at g2
  cases g2
  rw [h3] at g3
  cases g3
  obtain ⟨f, hf, hrows⟩ := hans (by simpa using hθ) (some exX113) [2, 3] (by simp) (by simp)
    (exExog113 (by simp) (by simp) (by simp)) (fun _ h => h)
  exact ⟨θ, f, exFit143 θ, hf, hrows⟩

end PV
