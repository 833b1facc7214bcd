import Verif.Props.ShownTable
import Verif.Props.CurvesWork

/-!
# C142 for logistic trends: the trend shown saturates
-/

set_option linter.unusedSectionVars false

namespace PV
open Tensor Filter Topology

section
variable {τ : Type} [LinearOrder τ]

/-- Where a line ends up under the logistic function. -/
theorem logistic_line {days : τ → ℝ} {L : τ → ℝ} {cap k h D₀ : ℝ} (hpos : 0 < cap) (hh : 0 < h)
    (hline : ∀ t t', D₀ ≤ days t → D₀ ≤ days t' → L t' = L t + k * ((days t' - days t) / h)) :
    (0 < k → (∀ t t', D₀ ≤ days t → days t < days t' → logisticOf cap (L t) < logisticOf cap (L t')) ∧
      ∀ ε > 0, ∃ D, ∀ t, D ≤ days t → cap - ε < logisticOf cap (L t)) ∧
    (k < 0 → (∀ t t', D₀ ≤ days t → days t < days t' → logisticOf cap (L t') < logisticOf cap (L t)) ∧
      ∀ ε > 0, ∃ D, ∀ t, D ≤ days t → logisticOf cap (L t) < ε) := by
  have hfar : ∀ (sgn : ℝ), 0 < sgn * k → ∀ M : ℝ, ∃ D, ∀ t, D ≤ days t → M ≤ sgn * L t := by
    intro sgn hsk M
    by_cases hex : ∃ t₀, D₀ ≤ days t₀
    · obtain ⟨t₀, ht₀⟩ := hex
      refine ⟨max D₀ (days t₀ + (M - sgn * L t₀) / (sgn * k) * h), fun t ht => ?_⟩
      have h1 := (le_max_left _ _).trans ht
      have h2 := (le_max_right _ _).trans ht
      rw [hline t₀ t ht₀ h1]
      have h3 : (M - sgn * L t₀) / (sgn * k) ≤ (days t - days t₀) / h := by
        rw [le_div_iff₀ hh]
        linarith
      rw [div_le_iff₀ hsk] at h3
      linarith
    · exact ⟨_, fun t ht => absurd ⟨t, ht⟩ hex⟩
  refine ⟨fun hk0 => ⟨fun t t' ht htt => ?_, fun ε hε => ?_⟩, fun hk0 => ⟨fun t t' ht htt => ?_, fun ε hε => ?_⟩⟩
  · rw [logisticOf_lt_logisticOf hpos, hline t t' ht (ht.trans htt.le)]
    have : 0 < k * ((days t' - days t) / h) := mul_pos hk0 (div_pos (sub_pos.2 htt) hh)
    linarith
  · have := (tendsto_logistic_top cap).eventually (lt_mem_nhds (show cap - ε < cap by linarith))
    obtain ⟨M, hM⟩ := eventually_atTop.1 this
    obtain ⟨D, hD⟩ := hfar 1 (by simpa using hk0) M
    exact ⟨D, fun t ht => hM _ (by simpa using hD t ht)⟩
  · rw [logisticOf_lt_logisticOf hpos, hline t t' ht (ht.trans htt.le)]
    have : k * ((days t' - days t) / h) < 0 := mul_neg_of_neg_of_pos hk0 (div_pos (sub_pos.2 htt) hh)
    linarith
  · have := (tendsto_logistic_bot cap).eventually (gt_mem_nhds hε)
    obtain ⟨M, hM⟩ := eventually_atBot.1 this
    obtain ⟨D, hD⟩ := hfar (-1) (by simpa using hk0) (-M)
    exact ⟨D, fun t ht => hM _ (by have := hD t ht; linarith)⟩

theorem learnedMean_lt {θs : List (SiteEnv ℝ)} (hne : θs ≠ []) {f g : SiteEnv ℝ → ℝ} (h : ∀ θ ∈ θs, f θ < g θ) :
    learnedMean θs f < learnedMean θs g := by
  unfold learnedMean
  have : (0 : ℝ) < θs.length := by
    have := List.length_pos_of_ne_nil hne
    exact_mod_cast this
  refine div_lt_div_of_pos_right ?_ this
  exact List.sum_lt_sum_of_ne_nil hne _ _ h

theorem learnedMean_const {θs : List (SiteEnv ℝ)} (hne : θs ≠ []) (v : ℝ) : learnedMean θs (fun _ => v) = v := by
  unfold learnedMean
  have : (θs.length : ℝ) ≠ 0 := by
    have := List.length_pos_of_ne_nil hne
    exact_mod_cast this.ne'
  simp [List.map_const', List.sum_replicate, this]

theorem far_for_all {days : τ → ℝ} {P : SiteEnv ℝ → τ → Prop} : ∀ {θs : List (SiteEnv ℝ)},
    (∀ θ ∈ θs, ∃ D, ∀ t, D ≤ days t → P θ t) → ∃ D, ∀ θ ∈ θs, ∀ t, D ≤ days t → P θ t
  | [], _ => ⟨0, by simp⟩
  | θ :: θs, h => by
    obtain ⟨D, hD⟩ := h θ (by simp)
    obtain ⟨D', hD'⟩ := far_for_all (θs := θs) fun θ' hθ' => h θ' (by simp [hθ'])
    refine ⟨max D D', fun θ' hθ' t ht => ?_⟩
    rcases List.mem_cons.1 hθ' with rfl | hθ'
    · exact hD t ((le_max_left _ _).trans ht)
    · exact hD' θ' hθ' t ((le_max_right _ _).trans ht)

variable {F κ G Θ P H : Type}

/-- The capacity among the parameters. -/
noncomputable def capacityAt (θ : SiteEnv ℝ) : ℝ := (θ "capacity").data.headD 0

/-- **C142**, logistic trend: there is one curve such that every row of every table a fitted forecaster shows has as its
trend the value of the curve at its date, in units of `y`.  The curve stays between 0 and the average learned capacity.
After the last training date it rises towards the average capacity if all learned growth rates are positive, and falls
towards 0 if all are negative. -/
theorem C142_saturates (np : Numpyro κ G (ModelArgs (Tensor ℝ) ℝ) ℝ Θ P (Draws ℝ)) (horizon : List τ → H → List τ)
    {w : World (Option (PiecewiseState ℝ τ)) τ (Tensor ℝ) ℝ F κ G Θ P} {i : Nat}
    {fc : Fc (Option (PiecewiseState ℝ τ)) τ (Tensor ℝ) ℝ κ G Θ P} (hi : w.fcs[i]? = some fc)
    {c : Contents (Option (PiecewiseState ℝ τ)) τ (Tensor ℝ) ℝ F κ G} (hc : Resolves w.heap w.feats fc.cfg c)
    (huni : c.hier = none)
    {Learned : ModelArgs (Tensor ℝ) ℝ → List (SiteEnv ℝ) → Prop}
    (hnp : ∀ a draw, LearnedFrom np fc.cfg a draw → ∃ θs, Learned a θs ∧ RunsModel draw θs)
    {y : Frame String τ ℝ} {X : Option (Frame String τ ℝ)} (hy : y.nlevels = 1) (hfit : (w.fit np i y X).1 = .ok ())
    {days : τ → ℝ} {suggest : List ℝ → Tensor ℝ → PyM (List ℝ × List ℝ)} {p : PiecewiseParams ℝ τ}
    {mode : String → String} {kind : String → Curve} {ds : List ℝ}
    (hE : ∀ s ys k x, fitTarget c.discrete c.scale y = .ok (s, ys) →
      Extrapolates days suggest logisticPredict p mode kind (c.uni s k x) ys ds) :
    ∃ s cfg m θs st cs, LearnedTable c Learned y X s cfg m θs ∧ m.trend.st.2 = some st ∧ st.cps = [cs] ∧
      (θs ≠ [] → (∀ θ ∈ θs, SingleSites cs θ ∧ ∃ cap > 0, θ "capacity" = ⟨[1, 1, 1], [cap]⟩) →
        ∃ T : τ → ℝ, (∀ t, 0 < T t ∧ T t < learnedMean θs capacityAt) ∧
          (∀ X' fh f x, ((w.fit np i y X).2.predict np horizon i .allSites (some X') fh).1 = .ok (.allSites f) →
            cfg.features X' = .ok x → DatesIn x (horizon y.times fh) → ∀ r ∈ f.rows,
            ∃ k, ScaleIs ⟨y.nlevels, y.index.map Prod.fst, false, c.discrete, s⟩ [] k ∧
              r.val "trend" = T r.time * k) ∧
          ((∀ θ ∈ θs, 0 < (θ "changepoint_coefficients").data.sum) →
            (∀ t t', ds.getLastD 0 ≤ days t → days t < days t' → T t < T t') ∧
            ∀ ε > 0, ∃ D, ∀ t, D ≤ days t → learnedMean θs capacityAt - ε < T t) ∧
          ((∀ θ ∈ θs, (θ "changepoint_coefficients").data.sum < 0) →
            (∀ t t', ds.getLastD 0 ≤ days t → days t < days t' → T t' < T t) ∧
            ∀ ε > 0, ∃ D, ∀ t, D ≤ days t → T t < ε)) := by
  obtain ⟨s, cfg, m, θs, hl, hall⟩ := C142_table np horizon hi hc huni hnp hy hfit
  have hl' := hl
  obtain ⟨ys, k, ht, rfl, hm, -⟩ := hl'
  have hE := hE s ys k (X.getD (Frame.ofIndex ys.times)) ht
  obtain ⟨i₀, hi', hi0⟩ := hE.interval
  obtain ⟨r, limit, hr, hlim, hle⟩ := hE.range
  obtain ⟨hcls, st, cs, hs, hF⟩ := uni_trend hE.trend hi' hi0 hr hE.flat hE.days hlim hm
  have hpt := C71_logistic hcls hE.squeeze hs hF.cps hF.series hF.one
  obtain ⟨hM, -⟩ := C106_builtin hm hpt hE.effects hE.default hE.names hE.noDefault hE.noTrend
  refine ⟨s, _, m, θs, st, cs, hl, hs, hF.cps, fun hne hok => ?_⟩
  have hM' : ∀ ys', fitTarget c.discrete c.scale y = .ok (s, ys') → RowModel _ ys' X m _ _ _ _ := fun ys' h => by
    rw [ht] at h
    cases h
    exact hM
  have hcap : ∀ θ ∈ θs, 0 < capacityAt θ := fun θ hθ => by
    obtain ⟨-, cap, h1, h2⟩ := hok θ hθ
    simpa [capacityAt, h2] using h1
  have hstep := dayStep_pos hE.days.two hE.days.increasing
  have hline : ∀ θ ∈ θs, ∀ t t', ds.getLastD 0 ≤ days t → ds.getLastD 0 ≤ days t' → piecewiseAt days st cs θ t'
      = piecewiseAt days st cs θ t
        + (θ "changepoint_coefficients").data.sum * ((days t' - days t) / dayStep ds) := by
    intro θ hθ t t' ht ht'
    rw [← trendTimeOf_diff, ← far_line hF hE.days.two hE.days.increasing hle (hok θ hθ).1 ht ht']
    ring
  refine ⟨fun t => learnedMean θs fun θ => logisticOf (capacityAt θ) (piecewiseAt days st cs θ t),
    fun t => ⟨?_, learnedMean_lt hne fun θ hθ => logisticOf_lt (hcap θ hθ)⟩, ?_, fun hk => ⟨?_, ?_⟩,
    fun hk => ⟨?_, ?_⟩⟩
  · have := learnedMean_lt hne (f := fun _ => 0) (g := fun θ => logisticOf (capacityAt θ) (piecewiseAt days st cs θ t))
      fun θ hθ => logisticOf_pos (hcap θ hθ)
    rwa [learnedMean_const hne] at this
  · intro X' fh f x h1 hx hd r hr
    obtain ⟨k1, hk1, htr, -⟩ := hall hM' (fun n => (kind n).rowWise)
      (fun θ hθ => ⟨(hok θ hθ).1, (hok θ hθ).2.choose, (hok θ hθ).2.choose_spec.2⟩) X' fh f x h1 hx hd r hr
    exact ⟨k1, hk1, htr⟩
  · exact fun t t' h1 h2 => learnedMean_lt hne fun θ hθ =>
      ((logistic_line (hcap θ hθ) hstep (hline θ hθ)).1 (hk θ hθ)).1 t t' h1 h2
  · intro ε hε
    obtain ⟨D, hD⟩ := far_for_all fun θ hθ => ((logistic_line (hcap θ hθ) hstep (hline θ hθ)).1 (hk θ hθ)).2 ε hε
    refine ⟨D, fun t ht => ?_⟩
    rw [show learnedMean θs capacityAt - ε = learnedMean θs fun θ => capacityAt θ - ε from by
      rw [← learnedMean_sub, learnedMean_const hne]]
    exact learnedMean_lt hne fun θ hθ => hD θ hθ t ht
  · exact fun t t' h1 h2 => learnedMean_lt hne fun θ hθ =>
      ((logistic_line (hcap θ hθ) hstep (hline θ hθ)).2 (hk θ hθ)).1 t t' h1 h2
  · intro ε hε
    obtain ⟨D, hD⟩ := far_for_all fun θ hθ => ((logistic_line (hcap θ hθ) hstep (hline θ hθ)).2 (hk θ hθ)).2 ε hε
    refine ⟨D, fun t ht => ?_⟩
    have := learnedMean_lt hne (f := fun θ => logisticOf (capacityAt θ) (piecewiseAt days st cs θ t))
      (g := fun _ => ε) fun θ hθ => hD θ hθ t ht
    rwa [learnedMean_const hne] at this

end

/-! The forecasters of `C118`'s example as objects: a linear or logistic trend, a Hill effect on one column and the
default effect on the other. -/

/-- The constructor arguments; the Hill effect is the object 0. -/
noncomputable def exConfig142 (form : TrendForm) : FcConfig (Option (PiecewiseState ℝ Int)) Int (Tensor ℝ) ℝ Nat Unit :=
  { compile := fun _ => .ok (· = "a")
    trend := .named (piecewiseClass (fun n : Int => (n : ℝ)) form.suggest form.predict exP85).new
    effects := [("ads", 0, some "a")], default := none, linear := (linearClass "multiplicative").new
    features := none, hier := none, discrete := false, scale := some (.float 1), rngKey := none, method := "map"
    settings := () }

/-- The contents of the objects. -/
noncomputable def exContents142 (form : TrendForm) :
    Contents (Option (PiecewiseState ℝ Int)) Int (Tensor ℝ) ℝ Unit Nat Unit :=
  { compile := (exCfg118 form (· = "a")).compile, trend := (exCfg118 form (· = "a")).trend
    effects := (exCfg118 form (· = "a")).effects, default := (exCfg118 form (· = "a")).default
    features := none, hier := none, discrete := false, scale := some (.float 1), rngKey := none, method := "map"
    settings := () }

/-- The objects. -/
noncomputable def exWorld142 (form : TrendForm) : World (Option (PiecewiseState ℝ Int)) Int (Tensor ℝ) ℝ Unit Nat Unit Unit Unit :=
  { heap := [(hillClass "additive").new], feats := [], samples := none
    fcs := [⟨exConfig142 form, none, none, none, false⟩] }

/-- A numpyro that finds the parameters `θ` and records every site of two samples. -/
noncomputable def exNumpyro142 (θ : SiteEnv ℝ) : Numpyro Nat Unit (ModelArgs (Tensor ℝ) ℝ) ℝ Unit Unit (Draws ℝ) :=
  { prngKey := id
    svi := fun _ _ _ => .ok ⟨(), [some 1, some 0]⟩
    samplePosterior := fun _ _ _ _ => .ok ()
    nuts := fun _ _ _ => .ok ()
    predictiveGuide := fun _ _ _ a => do
      let m ← computeMean a.trend a.trendData a.data a.effects θ
      pure (m.sites.map (fun s => (s.1, predictiveSite s.2.shape [m, m] s.1)))
    predictiveSamples := fun _ _ _ _ => .error .attributeError }

theorem exNumpyro142_runs (form : TrendForm) (θ : SiteEnv ℝ) (a : ModelArgs (Tensor ℝ) ℝ)
    (draw : ModelArgs (Tensor ℝ) ℝ → PyM (Draws ℝ)) (h : LearnedFrom (exNumpyro142 θ) (exConfig142 form) a draw) :
    ∃ θs, θs = [θ, θ] ∧ RunsModel draw θs := by
  refine ⟨_, rfl, ?_⟩
  rcases h with ⟨-, run, loss, -, -, rfl⟩ | ⟨h, -⟩
  · intro a r hr
    cases hm : computeMean a.trend a.trendData a.data a.effects θ with
    | error e =>
      simp only [exNumpyro142, hm] at hr
      cases hr
    | ok m =>
      simp only [exNumpyro142, hm] at hr
      have hr := Except.ok.inj hr
      refine ⟨[m, m], .cons hm (.cons hm .nil), fun n sh hn => ?_⟩
      obtain ⟨v, hv, hs, -⟩ := hn m (by simp)
      rw [← hr, ← hs]
      clear hr hn hs hm
      generalize m.sites = d at hv
      induction d with
      | nil => cases hv
      | cons q d ih =>
        obtain ⟨b, t⟩ := q
        simp only [PyDict.get?, List.map_cons] at hv ⊢
        by_cases hq : b = n
        · rw [if_pos hq] at hv ⊢
          rw [Option.some.inj hv, hq]
        · rw [if_neg hq] at hv ⊢
          exact ih hv
  · exact absurd h (by simp [exConfig142])

theorem exResolves142 (form : TrendForm) : Resolves (exWorld142 form).heap (exWorld142 form).feats (exConfig142 form)
    (exContents142 form) :=
  HasContents.resolves ⟨rfl, rfl, .cons ⟨rfl, rfl, _, rfl, rfl⟩ .nil, rfl, trivial, rfl, rfl, rfl, rfl, rfl, rfl⟩

theorem exScaled142R : fitTarget false (some (.float 1)) exY85 = .ok (.float 1, exY85) := by
  simp [fitTarget, setYScales, scaleY, Bind.bind, Except.bind, rawScale, zeroToOne, rowScales, applyScales, exY85, pure, Except.pure]

theorem exExtrapolates142 (form : TrendForm) (s : Scale ℝ) (ys : Frame String Int ℝ) (k : ℝ) (x : Frame String Int ℝ)
    (h : fitTarget (exContents142 form).discrete (exContents142 form).scale exY85 = .ok (s, ys)) :
    Extrapolates (fun n : Int => (n : ℝ)) form.suggest form.predict exP85 exMode118 exKind118
      ((exContents142 form).uni s k x) ys [0, 1, 2] := by
  have h' := h.symm.trans exScaled142R
  cases h'
  exact { exExtrapolates117 form (· = "a") with }

/-- `fit` returns. -/
theorem exFit142R (form : TrendForm) (hf : form ∈ [TrendForm.linear, .logistic none, .logistic (some 10)]) (θ : SiteEnv ℝ) :
    ((exWorld142 form).fit (exNumpyro142 θ) 0 exY85 (some exX118)).1 = .ok () := by
  obtain ⟨m, hm⟩ := exFits118 (· = "a") form hf
  have h := (C140_errors (exNumpyro142 θ) (w := exWorld142 form) (i := 0) rfl (exResolves142 form) rfl
    (y := exY85) (X := some exX118) (s := .float 1) (ys := exY85) (k := 1) exScaled142R rfl).2 m hm
  rw [h]
  rfl

/-- The logistic forecaster shows a trend that rises towards the capacity 10. -/
example : ∃ (θ : SiteEnv ℝ) (T : Int → ℝ), (∀ t, 0 < T t ∧ T t < 10) ∧ (∀ t t' : Int, 2 ≤ t → t < t' → T t < T t') ∧
    ((exWorld142 (.logistic none)).fit (exNumpyro142 θ) 0 exY85 (some exX118)).1 = .ok () := by
  have hfit := fun θ => exFit142R (.logistic none) (by simp) θ
  obtain ⟨m, hm⟩ := exFits118 (· = "a") (.logistic none) (by simp)
  obtain ⟨s', cs', hs', hcs', -⟩ := C117_saturates (exExtrapolates117 (.logistic none) (· = "a")) hm
  refine ⟨exθ118 cs', ?_⟩
  obtain ⟨s, cfg, m', θs, st, cs, hl, hs, hcs, h⟩ := C142_saturates (exNumpyro142 (exθ118 cs')) (fun _ (fh : List Int) => fh)
    (w := exWorld142 (.logistic none)) (i := 0) rfl (exResolves142 _) rfl (exNumpyro142_runs _ _) (y := exY85)
    (X := some exX118) rfl (hfit _) (exExtrapolates142 _)
  obtain ⟨ys, k, ht, rfl, hm', rfl⟩ := hl
  have ht' := ht.symm.trans exScaled142R
  cases ht'
  have hmm : m' = m := Except.ok.inj (hm'.symm.trans hm)
  subst hmm
  rw [hs] at hs'
  cases hs'
  rw [hcs] at hcs'
  cases hcs'
  obtain ⟨T, h1, -, h2, -⟩ := h (by simp) (by
    intro θ hθ
    have : θ = exθ118 cs' := by simpa using hθ
    rw [this]
    exact ⟨exSites118 .linear cs', 10, by norm_num, rfl⟩)
  refine ⟨T, fun t => ⟨(h1 t).1, (h1 t).2.trans_le (le_of_eq ?_)⟩, fun t t' a b => ?_, hfit _⟩
  · simp [learnedMean, capacityAt, exθ118]
  · have hpos := (h2 (by
      intro θ hθ
      have : θ = exθ118 cs' := by simpa using hθ
      rw [this]
      obtain ⟨-, st', cs'', hs'', hF⟩ := uni_trend (exExtrapolates117 (.logistic none) (· = "a")).trend (i := 1) rfl
        one_pos (r := 1) rfl (exExtrapolates117 (.logistic none) (· = "a")).flat
        (exExtrapolates117 (.logistic none) (· = "a")).days (limit := 1)
        ⟨fun _ h => absurd h (by norm_num), fun _ => rfl, fun h => absurd h (by norm_num)⟩ hm
      rw [hs] at hs''
      cases hs''
      have h3 := hF.cps
      rw [hcs] at h3
      cases h3
      have h4 : cs' ≠ [] := by
        rintro rfl
        simpa using hF.before.first
      have := List.length_pos_of_ne_nil h4
      simp [exθ118, List.map_const', this])).1 t t'
    exact hpos (by simpa using (by exact_mod_cast a)) (by exact_mod_cast b)

/-- The linear forecaster meets the hypotheses of `C142_line`, and the parameters found have the sizes of its trend. -/
example : ∃ (θ : SiteEnv ℝ) (s : Scale ℝ) (cfg : UniConfig (Option (PiecewiseState ℝ Int)) (Scale ℝ) Int ℝ (Tensor ℝ) ℝ)
    (m : UniFit (Option (PiecewiseState ℝ Int)) (Scale ℝ) Int ℝ (Tensor ℝ) ℝ) (θs : List (SiteEnv ℝ))
    (st : PiecewiseState ℝ Int) (cs : List ℝ),
    LearnedTable (exContents142 .linear) (fun _ θs => θs = [θ, θ]) exY85 (some exX118) s cfg m θs ∧
      m.trend.st.2 = some st ∧ st.cps = [cs] ∧ ∀ θ ∈ θs, SingleSites cs θ := by
  obtain ⟨m, hm⟩ := exFits118 (· = "a") .linear (by simp)
  obtain ⟨s', cs', hs', hcs', -⟩ := C117_line (exExtrapolates117 .linear (· = "a")) hm
  obtain ⟨s, cfg, m', θs, st, cs, hl, hs, hcs, -⟩ := C142_line (exNumpyro142 (exθ118 cs')) (fun _ (fh : List Int) => fh)
    (w := exWorld142 .linear) (i := 0) rfl (exResolves142 _) rfl (exNumpyro142_runs _ _) (y := exY85)
    (X := some exX118) rfl (exFit142R .linear (by simp) _) (exExtrapolates142 .linear)
  refine ⟨exθ118 cs', s, cfg, m', θs, st, cs, hl, hs, hcs, ?_⟩
  obtain ⟨ys, k, ht, rfl, hm', rfl⟩ := hl
  have ht' := ht.symm.trans exScaled142R
  cases ht'
  have hmm : m' = m := Except.ok.inj (hm'.symm.trans hm)
  subst hmm
  rw [hs] at hs'
  cases hs'
  rw [hcs] at hcs'
  cases hcs'
  intro θ hθ
  have : θ = exθ118 cs' := by simpa using hθ
  rw [this]
  exact exSites118 .linear cs'

end PV
