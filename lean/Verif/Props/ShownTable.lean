import Verif.Props.ComponentsLearned
import Verif.Props.FarFuture

/-!
# C142: the table of components that a fitted forecaster shows
-/

set_option linter.unusedSectionVars false

namespace PV
open Tensor
section
variable {S Sc τ K F κ G Θ P H : Type} [Field K] [LinearOrder K] [IsStrictOrderedRing K] [LinearOrder τ] [FloorRing K]

/-- The recorded columns of trend and effects. -/
theorem predicts_columns {cfg : UniConfig S Sc τ K (Tensor K) K} {y : Frame String τ K}
    {X : Option (Frame String τ K)} {m : UniFit S Sc τ K (Tensor K) K} {Ok : SiteEnv K → Prop}
    {g : SiteEnv K → τ → K} {mode : String → String} {raw : String → EffectCall (Transformed (Tensor K)) K}
    (hM : RowModel cfg y X m Ok g mode raw)
    {ρ : String → SiteEnv K → List K → List K} (hraw : ∀ n, RowWiseRaw (raw n) (ρ n))
    {θ : SiteEnv K} (hθ : Ok θ) {X' x : Frame String τ K} {fh : List τ} {st : MeanState K}
    (hp : Predicts cfg m θ X' fh x st) :
    st.sites.get? "trend" = some (columnOf (fh.map (g θ))) ∧
    ∀ fe ∈ kept m.fitted, st.sites.get? fe.name = some (columnOf (fh.map fun t =>
      rowValue (mode fe.name) fe.cols (ρ fe.name) (θ.scope fe.name) t (g θ t) (rowAt x t))) := by
  obtain ⟨hfit, ht, he, hd, hn, hres, htr⟩ := hM
  obtain ⟨yT, x0, -, -, hfe, hobjs⟩ := uniFitData_fitted hfit
  obtain ⟨hn', htr'⟩ := C17_names hn hres htr hfe
  have hpw : ∀ fe ∈ kept m.fitted, PointwiseEffect fe.effect
      (rowValue (mode fe.name) fe.cols (ρ fe.name)) := by
    intro fe hk
    obtain ⟨hc, b, hst⟩ := fitEffects_mem hfe fe (List.mem_of_mem_filter hk)
    have hcls : RowEffect fe.effect.cls (mode fe.name) (raw fe.name) := by
      rcases hc with ⟨e, hmem, h1, h2⟩ | ⟨h1, h2⟩
      · rw [h1, h2]; exact he e hmem
      · rw [h1, h2]; exact hd
    have hcols := kept_cols hk hcls.skips hst
    have := C71_effect hcls.atDates hcls.data hcls.call (hraw fe.name)
    rwa [hcols] at this
  obtain ⟨td, data, hp1, hm⟩ := hp.run
  unfold uniPredictData at hp1
  simp only [Option.getD_some, hp.features, bind, Except.bind, pure, Except.pure] at hp1
  split at hp1
  · cases hp1
  rename_i td' h1
  split at hp1
  · cases hp1
  rename_i data' h2
  cases hp1
  obtain ⟨trv, -, htv, -⟩ := C17_own_data hn' htr' h2 hobjs hm
  have htc := ht θ x fh td trv hθ hp.dates h1 htv
  have hsites := sites_entries hn' htr' h2 hobjs hm htv
    (val := fun fe => columnOf (fh.map fun t => rowValue (mode fe.name) fe.cols (ρ fe.name)
      (θ.scope fe.name) t (g θ t) (rowAt x t)))
    (by
      intro fe hfe xc d p v hxc htd hp' hcall
      rw [hpw fe hfe _ xc fh d _ (g θ) _ (hp.dates.select hxc) htd (by rw [hp', htc]) hcall,
        rowAt_select hxc])
  have hkn : ((kept m.fitted).map FittedEffect.name).Nodup := hn'.sublist (List.filter_sublist.map _)
  refine ⟨by rw [hsites, htc]; simp [PyDict.get?], fun fe hk => ?_⟩
  have hne : "trend" ≠ fe.name := fun h => htr' (h ▸ List.mem_map_of_mem (List.mem_of_mem_filter hk))
  rw [hsites, PyDict.get?, if_neg hne, get?_of_nodup hkn hk]

/-- The factor between model units and units of `y` is unique. -/
theorem ScaleIs.unique {ctx : Fitted K} {sid : List String} {k k' : K} (h : ScaleIs ctx sid k) (h' : ScaleIs ctx sid k') :
    k = k' := by
  rcases h with ⟨h1, rfl⟩ | ⟨h1, h2⟩ | ⟨h1, e, h2, h3⟩ <;> rcases h' with ⟨h1', rfl⟩ | ⟨h1', h2'⟩ | ⟨h1', e', h2', h3'⟩
  · rfl
  · rw [h1] at h1'; cases h1'
  · rw [h1] at h1'; cases h1'
  · rw [h1] at h1'; cases h1'
  · rw [h2] at h2'; cases h2'; rfl
  · rw [h2] at h2'; cases h2'
  · rw [h1] at h1'; cases h1'
  · rw [h2] at h2'; cases h2'
  · rw [h2] at h2'
    cases h2'
    rw [h3] at h3'
    cases h3'
    rfl

theorem forall₂_map_eq {α β γ : Type} {R : α → β → Prop} {l : List α} {l' : List β} (h : List.Forall₂ R l l') {f : β → γ}
    {g : α → γ} (hfg : ∀ a ∈ l, ∀ b, R a b → f b = g a) : l'.map f = l.map g := by
  induction h with
  | nil => rfl
  | cons h1 _ ih =>
    rw [List.map_cons, List.map_cons, hfg _ (by simp) _ h1, ih fun a ha b => hfg a (by simp [ha]) b]

/-- The average over the learned parameters. -/
def learnedMean (θs : List (SiteEnv K)) (f : SiteEnv K → K) : K := (θs.map f).sum / (θs.length : K)

/-- The fit of a forecaster object on `y`, `X` with contents `c`: scale `s`, fitted effects `m`, learned parameters `θs`. -/
def LearnedTable (c : Contents S τ (Tensor K) K F κ G) (Learned : ModelArgs (Tensor K) K → List (SiteEnv K) → Prop)
    (y : Frame String τ K) (X : Option (Frame String τ K)) (s : Scale K) (cfg : UniConfig S (Scale K) τ K (Tensor K) K)
    (m : UniFit S (Scale K) τ K (Tensor K) K) (θs : List (SiteEnv K)) : Prop :=
  ∃ ys k, fitTarget c.discrete c.scale y = .ok (s, ys) ∧ cfg = c.uni s k (X.getD (Frame.ofIndex ys.times)) ∧
    uniFitData cfg ys X = .ok m ∧ Learned (uniCall m s (some ⟨[m.yArray.length, 1], m.yArray⟩) (m.trendData, m.data)) θs

/-- **C142**: the table that `predict_all_sites` shows for one series has, at every date of every horizon, the average
of the trend over the learned parameters, and for each effect the average of its value for the regressors of that
date, times the scale of `y`. -/
theorem C142_table (np : Numpyro κ G (ModelArgs (Tensor K) K) K Θ P (Draws K)) (horizon : List τ → H → List τ)
    {w : World S τ (Tensor K) K F κ G Θ P} {i : Nat} {fc : Fc S τ (Tensor K) K κ G Θ P} (hi : w.fcs[i]? = some fc)
    {c : Contents S τ (Tensor K) K F κ G} (hc : Resolves w.heap w.feats fc.cfg c) (huni : c.hier = none)
    {Learned : ModelArgs (Tensor K) K → List (SiteEnv K) → Prop}
    (hnp : ∀ a draw, LearnedFrom np fc.cfg a draw → ∃ θs, Learned a θs ∧ RunsModel draw θs)
    {y : Frame String τ K} {X : Option (Frame String τ K)} (hy : y.nlevels = 1) (hfit : (w.fit np i y X).1 = .ok ()) :
    ∃ s cfg m θs, LearnedTable c Learned y X s cfg m θs ∧
      ∀ {Ok : SiteEnv K → Prop} {g : SiteEnv K → τ → K} {mode : String → String}
        {raw : String → EffectCall (Transformed (Tensor K)) K} {ρ : String → SiteEnv K → List K → List K},
        (∀ ys, fitTarget c.discrete c.scale y = .ok (s, ys) → RowModel cfg ys X m Ok g mode raw) →
        (∀ n, RowWiseRaw (raw n) (ρ n)) → (∀ θ ∈ θs, Ok θ) →
        ∀ X' fh f x, ((w.fit np i y X).2.predict np horizon i .allSites (some X') fh).1 = .ok (.allSites f) →
          cfg.features X' = .ok x → DatesIn x (horizon y.times fh) →
          ∀ r ∈ f.rows, ∃ k, ScaleIs ⟨y.nlevels, y.index.map Prod.fst, false, c.discrete, s⟩ [] k ∧
            r.val "trend" = learnedMean θs (fun θ => g θ r.time) * k ∧
            ∀ fe ∈ kept m.fitted, r.val fe.name = learnedMean θs (fun θ => rowValue (mode fe.name) fe.cols (ρ fe.name)
              (θ.scope fe.name) r.time (g θ r.time) (rowAt x r.time)) * k := by
  obtain ⟨s, ys, k, m, θs, ht, hk, hm, hl, hall⟩ := C141_components np horizon hi hc huni hnp hy hfit
  refine ⟨s, _, m, θs, ⟨ys, k, ht, rfl, hm, hl⟩, ?_⟩
  intro Ok g mode raw ρ hM hraw hok X' fh f x hf hx hdates r hr
  obtain ⟨d, runs, hd, hruns, hrows⟩ := hall (some X') fh f hf
  obtain ⟨p, k', hp, hk', hv⟩ := hrows r hr
  have hcol : ∀ θ ∈ θs, ∀ st, computeMean (m.trend.cls.call m.trend.st) d.1 d.2 (callsOf m.objs) θ = .ok st → _ :=
    fun θ hθ st hst => predicts_columns (hM ys ht) hraw (hok θ hθ) (st := st) (X' := X') (fh := horizon y.times fh)
      ⟨hx, hdates, d.1, d.2, hd, hst⟩
  have hgen : ∀ (n : String) (h : SiteEnv K → τ → K), (∀ θ ∈ θs, ∀ st,
      computeMean (m.trend.cls.call m.trend.st) d.1 d.2 (callsOf m.objs) θ = .ok st →
      st.sites.get? n = some (columnOf ((horizon y.times fh).map (h θ)))) →
      r.val n = learnedMean θs (fun θ => h θ r.time) * k' := by
    intro n h hh
    rw [hv n (fun st hst => by
      obtain ⟨θ, hθ, h1⟩ := forall₂_source hruns hst
      exact ⟨_, hh θ hθ st h1, by simp [columnOf], columnOf_wf _⟩), learnedMean, ← hruns.length_eq]
    congr 3
    refine forall₂_map_eq hruns fun θ hθ st hst => ?_
    rw [hh θ hθ st hst]
    simp [columnOf, List.getD_eq_getElem?_getD, hp]
  exact ⟨k', hk', hgen _ g fun θ hθ st hst => (hcol θ hθ st hst).1, fun fe hfe =>
    hgen _ (fun θ t => rowValue (mode fe.name) fe.cols (ρ fe.name) (θ.scope fe.name) t (g θ t) (rowAt x t))
      fun θ hθ st hst => (hcol θ hθ st hst).2 fe hfe⟩

/-- **C142**, what-if: of the rows that one fitted forecaster shows for a date, whatever else is asked for, the trend is
always the same, and the component of an effect is the same whenever its own columns have the same values at that date. -/
theorem C142_what_if (np : Numpyro κ G (ModelArgs (Tensor K) K) K Θ P (Draws K)) (horizon : List τ → H → List τ)
    {w : World S τ (Tensor K) K F κ G Θ P} {i : Nat} {fc : Fc S τ (Tensor K) K κ G Θ P} (hi : w.fcs[i]? = some fc)
    {c : Contents S τ (Tensor K) K F κ G} (hc : Resolves w.heap w.feats fc.cfg c) (huni : c.hier = none)
    {Learned : ModelArgs (Tensor K) K → List (SiteEnv K) → Prop}
    (hnp : ∀ a draw, LearnedFrom np fc.cfg a draw → ∃ θs, Learned a θs ∧ RunsModel draw θs)
    {y : Frame String τ K} {X : Option (Frame String τ K)} (hy : y.nlevels = 1) (hfit : (w.fit np i y X).1 = .ok ()) :
    ∃ s cfg m θs, LearnedTable c Learned y X s cfg m θs ∧
      ∀ {Ok : SiteEnv K → Prop} {g : SiteEnv K → τ → K} {mode : String → String}
        {raw : String → EffectCall (Transformed (Tensor K)) K} {ρ : String → SiteEnv K → List K → List K},
        (∀ ys, fitTarget c.discrete c.scale y = .ok (s, ys) → RowModel cfg ys X m Ok g mode raw) →
        (∀ n, RowWiseRaw (raw n) (ρ n)) → (∀ θ ∈ θs, Ok θ) →
        ∀ X₁ X₂ fh₁ fh₂ f₁ f₂ x₁ x₂,
          ((w.fit np i y X).2.predict np horizon i .allSites (some X₁) fh₁).1 = .ok (.allSites f₁) →
          ((w.fit np i y X).2.predict np horizon i .allSites (some X₂) fh₂).1 = .ok (.allSites f₂) →
          cfg.features X₁ = .ok x₁ → cfg.features X₂ = .ok x₂ →
          DatesIn x₁ (horizon y.times fh₁) → DatesIn x₂ (horizon y.times fh₂) →
          ∀ r₁ ∈ f₁.rows, ∀ r₂ ∈ f₂.rows, r₁.time = r₂.time → r₁.val "trend" = r₂.val "trend" ∧
            ∀ fe ∈ kept m.fitted, (∀ col ∈ fe.cols, rowAt x₁ r₁.time col = rowAt x₂ r₁.time col) →
              r₁.val fe.name = r₂.val fe.name := by
  obtain ⟨s, cfg, m, θs, hl, hall⟩ := C142_table np horizon hi hc huni hnp hy hfit
  refine ⟨s, cfg, m, θs, hl, ?_⟩
  intro Ok g mode raw ρ hM hraw hok X₁ X₂ fh₁ fh₂ f₁ f₂ x₁ x₂ h1 h2 hx1 hx2 hd1 hd2 r₁ hr₁ r₂ hr₂ ht
  obtain ⟨k, hk, htr, he⟩ := hall hM hraw hok X₁ fh₁ f₁ x₁ h1 hx1 hd1 r₁ hr₁
  obtain ⟨k', hk', htr', he'⟩ := hall hM hraw hok X₂ fh₂ f₂ x₂ h2 hx2 hd2 r₂ hr₂
  have hkk := hk.unique hk'
  subst hkk
  refine ⟨by rw [htr, htr', ht], fun fe hfe hcol => ?_⟩
  rw [he fe hfe, he' fe hfe, ← ht]
  simp only [rowValue, List.map_congr_left hcol]

end

/-! ## The trend shown -/

section
variable {τ F κ G Θ P H : Type} [LinearOrder τ]

theorem learnedMean_sub (θs : List (SiteEnv ℝ)) (f g : SiteEnv ℝ → ℝ) :
    learnedMean θs f - learnedMean θs g = learnedMean θs fun θ => f θ - g θ := by
  have : ∀ l : List (SiteEnv ℝ), (l.map f).sum - (l.map g).sum = (l.map fun θ => f θ - g θ).sum := by
    intro l
    induction l with
    | nil => simp
    | cons θ l ih =>
      simp only [List.map_cons, List.sum_cons, ← ih]
      ring
  simp only [learnedMean, ← this]
  ring

/-- **C142**, linear trend: past the last training date the trend shown follows one line, whichever horizons and
regressors are asked for; its slope per step is the average over the learned parameters of the sum of the coefficients,
times the scale of `y`. -/
theorem C142_line (np : Numpyro κ G (ModelArgs (Tensor ℝ) ℝ) ℝ Θ P (Draws ℝ)) (horizon : List τ → H → List τ)
    {w : World (Option (PiecewiseState ℝ τ)) τ (Tensor ℝ) ℝ F κ G Θ P} {i : Nat}
    {fc : Fc (Option (PiecewiseState ℝ τ)) τ (Tensor ℝ) ℝ κ G Θ P} (hi : w.fcs[i]? = some fc)
    {c : Contents (Option (PiecewiseState ℝ τ)) τ (Tensor ℝ) ℝ F κ G} (hc : Resolves w.heap w.feats fc.cfg c)
    (huni : c.hier = none)
    {Learned : ModelArgs (Tensor ℝ) ℝ → List (SiteEnv ℝ) → Prop}
    (hnp : ∀ a draw, LearnedFrom np fc.cfg a draw → ∃ θs, Learned a θs ∧ RunsModel draw θs)
    {y : Frame String τ ℝ} {X : Option (Frame String τ ℝ)} (hy : y.nlevels = 1) (hfit : (w.fit np i y X).1 = .ok ())
    {days : τ → ℝ} {suggest : List ℝ → Tensor ℝ → PyM (List ℝ × List ℝ)} {p : PiecewiseParams ℝ τ}
    {mode : String → String} {kind : String → Curve} {ds : List ℝ}
    (hE : ∀ s ys k x, fitTarget c.discrete c.scale y = .ok (s, ys) →
      Extrapolates days suggest piecewisePredict p mode kind (c.uni s k x) ys ds) :
    ∃ s cfg m θs st cs, LearnedTable c Learned y X s cfg m θs ∧ m.trend.st.2 = some st ∧ st.cps = [cs] ∧
      ((∀ θ ∈ θs, SingleSites cs θ) →
        ∀ X₁ X₂ fh₁ fh₂ f₁ f₂ x₁ x₂,
          ((w.fit np i y X).2.predict np horizon i .allSites (some X₁) fh₁).1 = .ok (.allSites f₁) →
          ((w.fit np i y X).2.predict np horizon i .allSites (some X₂) fh₂).1 = .ok (.allSites f₂) →
          cfg.features X₁ = .ok x₁ → cfg.features X₂ = .ok x₂ →
          DatesIn x₁ (horizon y.times fh₁) → DatesIn x₂ (horizon y.times fh₂) →
          ∀ r₁ ∈ f₁.rows, ∀ r₂ ∈ f₂.rows, ds.getLastD 0 ≤ days r₁.time → ds.getLastD 0 ≤ days r₂.time →
            ∃ k, ScaleIs ⟨y.nlevels, y.index.map Prod.fst, false, c.discrete, s⟩ [] k ∧
              r₂.val "trend" - r₁.val "trend" = learnedMean θs (fun θ => (θ "changepoint_coefficients").data.sum)
                * ((days r₂.time - days r₁.time) / dayStep ds) * k) := by
  obtain ⟨s, cfg, m, θs, hl, hall⟩ := C142_table np horizon hi hc huni hnp hy hfit
  have hl' := hl
  obtain ⟨ys, k, ht, rfl, hm, -⟩ := hl'
  have hE := hE s ys k (X.getD (Frame.ofIndex ys.times)) ht
  obtain ⟨i₀, hi', hi0⟩ := hE.interval
  obtain ⟨r, limit, hr, hlim, hle⟩ := hE.range
  obtain ⟨hcls, st, cs, hs, hF⟩ := uni_trend hE.trend hi' hi0 hr hE.flat hE.days hlim hm
  have hpt : PointwiseTrend m.trend (SingleSites cs) (piecewiseAt days st cs) :=
    C71_piecewise hcls hE.squeeze hs hF.cps hF.series
  obtain ⟨hM, -⟩ := C106_builtin hm hpt hE.effects hE.default hE.names hE.noDefault hE.noTrend
  refine ⟨s, _, m, θs, st, cs, hl, hs, hF.cps, ?_⟩
  intro hok X₁ X₂ fh₁ fh₂ f₁ f₂ x₁ x₂ h1 h2 hx1 hx2 hd1 hd2 r₁ hr₁ r₂ hr₂ ht1 ht2
  have hM' : ∀ ys', fitTarget c.discrete c.scale y = .ok (s, ys') → RowModel _ ys' X m _ _ _ _ := fun ys' h => by
    rw [ht] at h
    cases h
    exact hM
  obtain ⟨k1, hk1, htr1, -⟩ := hall hM' (fun n => (kind n).rowWise) hok X₁ fh₁ f₁ x₁ h1 hx1 hd1 r₁ hr₁
  obtain ⟨k2, hk2, htr2, -⟩ := hall hM' (fun n => (kind n).rowWise) hok X₂ fh₂ f₂ x₂ h2 hx2 hd2 r₂ hr₂
  have hkk := hk1.unique hk2
  subst hkk
  refine ⟨k1, hk1, ?_⟩
  rw [htr1, htr2, ← sub_mul, learnedMean_sub]
  congr 1
  unfold learnedMean
  have : θs.map (fun θ => piecewiseAt days st cs θ r₂.time - piecewiseAt days st cs θ r₁.time)
      = θs.map (fun θ => (θ "changepoint_coefficients").data.sum * ((days r₂.time - days r₁.time) / dayStep ds)) := by
    refine List.map_congr_left fun θ hθ => ?_
    rw [far_line hF hE.days.two hE.days.increasing hle (hok θ hθ) ht1 ht2, trendTimeOf_diff]
  rw [this, List.sum_map_mul_right]
  ring

end

/-! The forecaster of `C141`'s example meets the hypotheses of `C142_table`: its fit is a `RowModel`, and the parameters
used by the example's numpyro have the sizes its trend needs. -/

/-- The scale and the scaled target. -/
def exScaled142 : PyM (Scale ℚ × Frame String ℤ ℚ) := fitTarget false none (exTarget [0, 1, 2, 3])

/-- The fit. -/
def exFit142 (q : Scale ℚ × Frame String ℤ ℚ) : PyM (UniFit ExState (Scale ℚ) ℤ ℚ (Tensor ℚ) ℚ) :=
  uniFitData ((exContents (some exCenter)).uni q.1 1 (exRegressor [0, 1, 2, 3] fun t => t)) q.2
    (some (exRegressor [0, 1, 2, 3] fun t => t))

/-- What the fit left in the trend, and the effects it keeps. -/
def exLeft142 : Option (List Nat × Bool × List String) :=
  match exScaled142 with
  | .ok q => match exFit142 q with
    | .ok m => match m.trend.st.2 with
      | some st => some (st.cps.map List.length, st.series.isNone, (kept m.fitted).map FittedEffect.name)
      | none => none
    | _ => none
  | _ => none

example : exLeft142 = some ([3], true, ["exogenous_variables_effect"]) := by
  decide +kernel

example {q : Scale ℚ × Frame String ℤ ℚ} {m : UniFit ExState (Scale ℚ) ℤ ℚ (Tensor ℚ) ℚ} {st : PiecewiseState ℚ ℤ} {cs : List ℚ}
    (hm : exFit142 q = .ok m) (hst : m.trend.st.2 = some st) (hcs : st.cps = [cs]) (hser : st.series = none) (h3 : cs.length = 3) :
    RowModel ((exContents (some exCenter)).uni q.1 1 (exRegressor [0, 1, 2, 3] fun t => t)) q.2
      (some (exRegressor [0, 1, 2, 3] fun t => t)) m (SingleSites cs) (piecewiseAt (fun n : ℤ => (n : ℚ)) st cs)
      (fun _ => "additive") (fun _ => linearRaw) ∧ SingleSites cs exTheta141 := by
  have hcls : m.trend.cls = piecewiseClass (fun n : ℤ => (n : ℚ)) suggestLinear piecewisePredict exPiecewise := by
    obtain ⟨yT, x0, htf, -⟩ := uniFitData_fitted hm
    unfold EffectObj.fit at htf
    simp only [bind, Except.bind] at htf
    split at htf
    · cases htf
    · exact (congrArg EffectObj.cls (Except.ok.inj htf)).symm
  exact ⟨⟨hm, C71_piecewise hcls rfl hst hcs hser, fun _ h => (by cases h), linear_rowEffect _, .nil, (by simp [exContents, Contents.uni]), (by simp [exContents, Contents.uni])⟩,
    ⟨10, rfl⟩, h3.symm⟩

end PV
