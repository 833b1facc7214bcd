import Verif.Props.FarFuture
import Verif.Props.UsualWorks

/-!
# C118: forecasters with linear, log and Hill effects can be fitted and forecast
-/

set_option linter.unusedSectionVars false

namespace PV
open Tensor

section
variable {τ : Type} [LinearOrder τ]

/-! ## The trend -/

/-- The piecewise trends of the package; `loc` is the location of the capacity prior, if it has one. -/
inductive TrendForm | linear | logistic (loc : Option ℝ)

noncomputable def TrendForm.suggest : TrendForm → List ℝ → Tensor ℝ → PyM (List ℝ × List ℝ)
  | .linear => suggestLinear
  | .logistic loc => suggestLogistic loc

noncomputable def TrendForm.predict : TrendForm → Bool → Nat → EffectCall (Tensor ℝ) ℝ
  | .linear => piecewisePredict
  | .logistic _ => logisticPredict

/-- The targets a trend can start from: a logistic trend needs positive targets, and if the location of the
capacity is given, a first and last target below it. -/
def TrendForm.Targets : TrendForm → List ℝ → Prop
  | .linear, _ => True
  | .logistic none, vs => ∀ v ∈ vs, 0 < v
  | .logistic (some cap), vs => ∀ v, vs.head? = some v ∨ vs.getLast? = some v → 0 < v ∧ v < cap

/-- The sizes of the sample sites of a trend with changepoints `cs`. -/
def TrendForm.Sites (cs : List ℝ) (θ : SiteEnv ℝ) : TrendForm → Prop
  | .linear => SingleSites cs θ
  | .logistic _ => SingleSites cs θ ∧ ∃ cap, θ "capacity" = ⟨[1, 1, 1], [cap]⟩

theorem single_get? {vs : List ℝ} {n i : Nat} (hn : vs.length = n) (hi : i < n) :
    (⟨[1, n, 1], vs⟩ : Tensor ℝ).get? [0, i, 0] = vs[i]? := by
  subst hn
  simp [get?, ravel, size, hi]

theorem suggest_runs {form : TrendForm} {ts vs : List ℝ} (hinc : ts.Pairwise (· < ·)) (h2 : 2 ≤ ts.length)
    (hlen : vs.length = ts.length) (hv : form.Targets vs) :
    ∃ s, form.suggest ts ⟨[1, ts.length, 1], vs⟩ = .ok s := by
  cases form with
  | linear =>
    match ts, h2 with
    | a :: b :: l, _ =>
      show ∃ s, suggestLinear (a :: b :: l) _ = .ok s
      unfold suggestLinear
      have hlast : (a :: b :: l).getLast? = some ((b :: l).getLast (by simp)) := by
        rw [List.getLast?_eq_some_getLast (by simp)]
        simp
      simp only [List.head?_cons, hlast]
      rw [if_neg]
      · exact ⟨_, rfl⟩
      · exact ((List.pairwise_cons.1 hinc).1 _ (List.getLast_mem _)).ne
  | logistic loc =>
    have hnd : ts.Nodup := hinc.imp fun h => h.ne
    have h0 : ExtremeAt (· ≤ ·) ts 0 (ts[0]'(by omega)) := by
      refine ⟨List.getElem?_eq_getElem _, fun u hu => ?_⟩
      obtain ⟨k, hk, rfl⟩ := List.getElem_of_mem hu
      rcases Nat.eq_zero_or_pos k with rfl | h
      · exact le_rfl
      · exact (List.pairwise_iff_getElem.1 hinc _ _ _ _ h).le
    have h1 : ExtremeAt (· ≥ ·) ts (ts.length - 1) (ts[ts.length - 1]'(by omega)) := by
      refine ⟨List.getElem?_eq_getElem _, fun u hu => ?_⟩
      obtain ⟨k, hk, rfl⟩ := List.getElem_of_mem hu
      rcases Nat.lt_or_ge k (ts.length - 1) with h | h
      · exact (List.pairwise_iff_getElem.1 hinc _ _ _ _ h).le
      · have : k = ts.length - 1 := by omega
        subst this
        exact le_rfl
    have h01 : (ts[0]'(by omega)) ≠ ts[ts.length - 1]'(by omega) :=
      (List.pairwise_iff_getElem.1 hinc _ _ _ _ (by omega)).ne
    have hw : (⟨[1, ts.length, 1], vs⟩ : Tensor ℝ).WF := by simp [WF, size, hlen]
    cases loc with
    | none =>
      obtain ⟨-, ks, ms, h, -⟩ := C41_default_capacity (N := 1) (T := ts.length) rfl hw rfl hnd h0 h1 h01
        one_pos hv
      exact ⟨_, h⟩
    | some cap =>
      have hv' : ∀ v, vs.head? = some v ∨ vs.getLast? = some v → 0 < v ∧ v < cap := hv
      obtain ⟨ks, ms, h, -⟩ := C41_interpolates_partial (cap := cap) (N := 1) (T := ts.length) rfl hw rfl hnd h0 h1
        h01 one_pos
        (by
          intro i hi a ha
          obtain rfl : i = 0 := by omega
          rw [single_get? hlen (by omega)] at ha
          exact hv' a (.inl (by rw [List.head?_eq_getElem?]; exact ha)))
        (by
          intro i hi a ha
          obtain rfl : i = 0 := by omega
          rw [single_get? hlen (by omega)] at ha
          exact hv' a (.inr (by rw [List.getLast?_eq_getElem?, hlen]; exact ha)))
      exact ⟨_, h⟩

/-- The trend of one series with at least two dates can be fitted. -/
theorem form_fits {form : TrendForm} {days : τ → ℝ} (hmono : StrictMono days) {p : PiecewiseParams ℝ τ} {i r : ℝ}
    (hi : p.interval = .scalar i) (hi0 : 0 < i) (hr : p.range = .scalar r) (hr0 : 0 < r)
    (hdt : Starts p) {y y' : Frame String τ ℝ} {c : String} (hyl : y.nlevels = 1)
    (hyc : y.cols = [c]) (hys : y.rows.Pairwise fun a b => a.time < b.time)
    (h2 : 2 ≤ y.rows.length) (hy' : detrended p y = .ok y')
    (hv : form.Targets (y'.rows.map fun r => r.val c)) :
    ∃ s, piecewiseFit days form.suggest p y = .ok s := by
  have hd := history_of_sorted hmono hys h2
  have hu : unique (y.rows.map Row.time) = y.rows.map Row.time :=
    unique_of_nodup ((List.pairwise_map.2 hys).imp fun h => h.ne)
  set ds := y.rows.map fun r => days r.time with hds
  obtain ⟨hl', hc', hi'⟩ := hdt.same hy'
  have ht' : y'.rows.map Row.time = y.rows.map Row.time := by
    simpa [Frame.index, Function.comp_def] using congrArg (List.map Prod.snd) hi'
  have hlen' : y'.rows.length = y.rows.length := by simpa using congrArg List.length ht'
  have hya : y'.seriesToTensor = .ok ⟨[1, y'.rows.length, 1], y'.flatVals y'.rows⟩ := by
    unfold Frame.seriesToTensor
    rw [if_neg (by simp [hc', hyc]), if_pos (hl'.trans hyl), hc', hyc]
    rfl
  have hfl : y'.flatVals y'.rows = y'.rows.map fun r => r.val c := by
    unfold Frame.flatVals
    rw [hc', hyc]
    simp only [List.map_cons, List.map_nil]
    generalize y'.rows = l
    induction l with
    | nil => rfl
    | cons a l ih => simp [ih]
  have hsug : ∃ s, form.suggest ((unique (y'.rows.map Row.time)).map fun t => trendTimeOf ds (days t))
      ⟨[1, y'.rows.length, 1], y'.flatVals y'.rows⟩ = .ok s := by
    have hinc : ((y.rows.map Row.time).map fun t => trendTimeOf ds (days t)).Pairwise (· < ·) := by
      rw [List.map_map]
      refine List.pairwise_map.2 (hys.imp fun {a b} h => ?_)
      have hstep := dayStep_pos hd.two hd.increasing
      have := trendTimeOf_diff (ds := ds) (days a.time) (days b.time)
      have hpos : 0 < (days b.time - days a.time) / dayStep ds := div_pos (sub_pos.2 (hmono h)) hstep
      simp only [Function.comp]
      linarith
    have := suggest_runs (form := form) hinc (by simpa using h2) (vs := y'.rows.map fun r => r.val c) (by simp [hlen']) hv
    rw [ht', hu, hfl, hlen']
    simpa using this
  obtain ⟨s, hs⟩ := hsug
  have key := (C34_fit_fails (p := p) (n := 1) (.inl ⟨hyl.le, rfl⟩) hd (by rw [hi]; trivial)
    (by rw [hr]; trivial) (by
      intro k _ v hv
      rw [hi] at hv
      cases hv
      exact hi0) (y' := y') hy' hya hs).2
  cases hf : piecewiseFit days form.suggest p y with
  | ok s => exact ⟨s, rfl⟩
  | error e =>
    obtain ⟨k, hk, r', limit, hr', hlim, hle⟩ := key.1 ⟨e, hf⟩
    rw [hr] at hr'
    cases hr'
    exfalso
    have h2' : (2 : ℝ) ≤ ds.length := by exact_mod_cast hd.two
    by_cases h1 : r < 1
    · have := hlim.fraction hr0 h1
      have : 0 < limit := by rw [this]; exact mul_pos hr0 (by linarith)
      linarith
    · have := hlim.count (not_lt.1 h1)
      linarith

theorem form_transforms {days : τ → ℝ} {p : PiecewiseParams ℝ τ}
    {e : EffectObj (Option (PiecewiseState ℝ τ)) (Frame String τ ℝ) (Scale ℝ) τ ℝ (Tensor ℝ) ℝ}
    {suggest : List ℝ → Tensor ℝ → PyM (List ℝ × List ℝ)} {predict : Bool → Nat → EffectCall (Tensor ℝ) ℝ}
    {cols : List String}
    (hc : e.cls = piecewiseClass days suggest predict p) (hst : e.st.1 = ⟨some cols, some true⟩)
    {s : PiecewiseState ℝ τ} (hs : e.st.2 = some s) (hcps : s.cps ≠ []) {x : Frame String τ ℝ}
    (hcols : ∀ a ∈ cols, a ∈ x.cols) (fh : List τ) : ∃ d, e.transform (some x) fh = .ok d := by
  unfold EffectObj.transform
  rw [baseTransform_eq _ hst, if_pos hcols, hc, hs]
  simp only [piecewiseClass, trendTags, Bool.and_false, if_true, Bool.false_eq_true, if_false,
    piecewiseTransform, changepointMatrix, changepointTensor, hcps, bind, Except.bind]
  split <;> exact ⟨_, rfl⟩

/-- The value of the trend: defined, a column with one entry per date. -/
theorem form_value {form : TrendForm} {days : τ → ℝ} {p : PiecewiseParams ℝ τ}
    {e : EffectObj (Option (PiecewiseState ℝ τ)) (Frame String τ ℝ) (Scale ℝ) τ ℝ (Tensor ℝ) ℝ}
    (hc : e.cls = piecewiseClass days form.suggest form.predict p) (hsq : p.squeeze = true)
    {s : PiecewiseState ℝ τ} (hs : e.st.2 = some s) {cs : List ℝ} (hcs : s.cps = [cs]) (hser : s.series = none)
    (hns : s.time.nSeries = 1) {θ : SiteEnv ℝ} (hθ : form.Sites cs θ) {x : Frame String τ ℝ} {fh : List τ}
    (hd : DatesIn x fh) {td : Transformed (Tensor ℝ)} (htd : e.transform (some x) fh = .ok td) :
    ∃ f : τ → ℝ, e.cls.call e.st θ td [] = .ok (columnOf (fh.map f)) := by
  obtain ⟨cols, mm, hmd, hm⟩ := trend_transform_data (by rw [hc]; rfl) (by rw [hc]; rfl) htd
  cases form with
  | linear =>
    have hpt := C71_piecewise (V := ℝ) hc hsq hs hcs hser
    obtain ⟨⟨o, ho⟩, hlδ⟩ := hθ
    have h2 : ∃ t, e.cls.call e.st θ td [] = .ok t := by
      rw [hc, hs] at hm
      rw [hc, hmd]
      simp only [piecewiseClass, hs, hsq] at hm ⊢
      unfold piecewiseTransform at hm
      rw [hcs] at hm
      obtain ⟨rr, h, -⟩ := C38_single (n := s.time.nSeries) (p := []) hm hlδ.symm rfl ho
      exact ⟨rr, h⟩
    obtain ⟨t, h2⟩ := h2
    exact ⟨_, by rw [h2, hpt θ x fh td t ⟨⟨o, ho⟩, hlδ⟩ hd htd h2]⟩
  | logistic loc =>
    have hpt := C71_logistic (V := ℝ) hc hsq hs hcs hser hns
    have hθ' := hθ
    obtain ⟨⟨⟨o, ho⟩, hlδ⟩, cap, hcap⟩ := hθ
    have h2 : ∃ t, e.cls.call e.st θ td [] = .ok t := by
      rw [hc, hs] at hm
      rw [hc, hmd]
      simp only [piecewiseClass, hs, hsq] at hm ⊢
      unfold piecewiseTransform at hm
      rw [hcs] at hm
      obtain ⟨rr, h, -⟩ := C38_single (n := s.time.nSeries) (p := []) hm hlδ.symm rfl ho
      show ∃ t, logisticPredict true s.time.nSeries θ mm [] = .ok t
      unfold logisticPredict
      rw [hns] at h ⊢
      simp only [bind, Except.bind, h, if_true, hcap]
      obtain ⟨cc, hcc, -⟩ := binop_scalar_right (fun x c : ℝ => logisticOf c x) (a := rr) cap
      exact ⟨cc, hcc⟩
    obtain ⟨t, h2⟩ := h2
    exact ⟨_, by rw [h2, hpt θ x fh td t hθ' hd htd h2]⟩

/-! ## The effects -/

/-- A curve of rows with `k` entries has a value exactly if linear or `k = 1`. -/
theorem curve_call {S : Type} {e : EffectObj S (Frame String τ ℝ) (Scale ℝ) τ ℝ (Tensor ℝ) ℝ} {kind : Curve}
    {mode : String} (hc : e.cls = kind.cls mode) {rows : List (List ℝ)} {k : Nat} (hk : ∀ r ∈ rows, r.length = k)
    (hne : rows ≠ []) {θ : SiteEnv ℝ} (hθ : kind = .linear → (θ "coefs").data.length = k)
    {p : PyDict (Tensor ℝ)} {tr : List ℝ} (htr : tr.length = rows.length)
    (hp : p.get? "trend" = some (columnOf tr)) :
    ((kind = .linear ∨ k = 1) → ∃ v, e.cls.call e.st θ (.data ⟨[rows.length, k], rows.flatten⟩) p = .ok v ∧
      v.shape = (columnOf tr).shape ∧ v.WF) ∧
    (¬ (kind = .linear ∨ k = 1) →
      e.cls.call e.st θ (.data ⟨[rows.length, k], rows.flatten⟩) p = .error .typeError) := by
  have hfl : rows.flatten.length = rows.length * k := by
    rw [List.length_flatten, List.sum_eq_card_nsmul _ k]
    · simp
    · simpa using hk
  have hmap : ∀ (f : ℝ → ℝ) (raw : EffectCall (Transformed (Tensor ℝ)) ℝ),
      raw θ (.data ⟨[rows.length, k], rows.flatten⟩) p
        = .ok ((⟨[rows.length, k], rows.flatten⟩ : Tensor ℝ).map f) →
      (k = 1 → ∃ v, AddMul.call ⟨mode, raw⟩ θ (.data ⟨[rows.length, k], rows.flatten⟩) p = .ok v ∧
        v.shape = (columnOf tr).shape ∧ v.WF) ∧
      (k ≠ 1 → AddMul.call ⟨mode, raw⟩ θ (.data ⟨[rows.length, k], rows.flatten⟩) p = .error .typeError) := by
    intro f raw hraw
    rw [addMul_predict_unfold hp (columnOf_wf _) hraw]
    have hl : ((⟨[rows.length, k], rows.flatten⟩ : Tensor ℝ).map f).data.length = rows.length * k := by
      show (rows.flatten.map f).length = _
      rw [List.length_map, hfl]
    rw [hl]
    have hpos : 0 < rows.length := List.length_pos_of_ne_nil hne
    refine ⟨fun h => ?_, fun h => ?_⟩
    · subst h
      rw [if_pos (by simp [columnOf, htr])]
      split
      · exact ⟨_, rfl, rfl, by simpa [WF, columnOf, size, trendShape, htr] using hl⟩
      · exact ⟨_, rfl, rfl, by simp [WF, columnOf, size, trendShape, htr, hl]⟩
    · rw [if_neg]
      simp only [columnOf, htr]
      intro h'
      exact h (by nlinarith)
  rw [hc]
  cases kind with
  | linear =>
    refine ⟨fun _ => ?_, fun h => absurd (.inl rfl) h⟩
    have := linear_call_ok (τ := τ) (S := S) (e := { e with cls := linearClass mode }) (mode := mode) rfl (k := k) (hθ rfl) rfl htr hp
    exact this
  | log =>
    obtain ⟨h1, h2⟩ := hmap _ logRaw rfl
    exact ⟨fun h => h1 (by simpa using h), fun h => h2 (by simpa using h)⟩
  | hill =>
    obtain ⟨h1, h2⟩ := hmap _ hillRaw rfl
    exact ⟨fun h => h1 (by simpa using h), fun h => h2 (by simpa using h)⟩

theorem curve_rowEffect {S : Type} (kind : Curve) (mode : String) :
    RowEffect (kind.cls (S' := S) (τ' := τ) mode) mode kind.raw := by
  cases kind
  · exact linear_rowEffect _
  · exact log_rowEffect _
  · exact hill_rowEffect _

/-- An effect with a curve can be fitted to one table. -/
theorem curve_fits {S : Type} {e : EffectObj S (Frame String τ ℝ) (Scale ℝ) τ ℝ (Tensor ℝ) ℝ} {kind : Curve}
    {mode : String} (hc : e.cls = kind.cls mode) (y : Frame String τ ℝ) {x : Frame String τ ℝ}
    (hlv : x.nlevels = 1) (sc : Scale ℝ) : ∃ e', e.clone.fit y (some x) sc = .ok e' := by
  unfold EffectObj.fit
  rw [baseFit_runs (h := e.clone.cls.toHooks) (by
    rintro ⟨-, x', hx', h⟩
    cases hx'
    omega)]
  have : e.clone.cls.fit e.clone.st.2 y (some x) sc = .ok e.clone.st.2 := by
    show e.cls.fit _ _ _ _ = _
    rw [hc]
    cases kind <;> rfl
  rw [this]
  exact ⟨_, rfl⟩

theorem curve_transforms {S : Type} {e : EffectObj S (Frame String τ ℝ) (Scale ℝ) τ ℝ (Tensor ℝ) ℝ} {kind : Curve}
    {mode : String} (hc : e.cls = kind.cls mode) {cols : List String} (hst : e.st.1 = ⟨some cols, some true⟩)
    {x : Frame String τ ℝ} (hcols : ∀ c ∈ cols, c ∈ x.cols) (hlv : x.nlevels = 1) (fh : List τ) :
    ∃ d, e.transform (some x) fh = .ok d := by
  unfold EffectObj.transform
  rw [baseTransform_eq _ hst, if_pos hcols]
  split
  · exact ⟨_, rfl⟩
  have hR := curve_rowEffect (S := S) (τ := τ) kind mode
  rw [hc]
  simp only [hR.data, hR.atDates, if_true, Frame.seriesToTensorOrArray]
  rw [if_pos (by exact hlv)]
  exact ⟨_, rfl⟩

/-! ## C118 -/

variable {form : TrendForm} {days : τ → ℝ} {p : PiecewiseParams ℝ τ}
  {cfg : UniConfig (Option (PiecewiseState ℝ τ)) (Scale ℝ) τ ℝ (Tensor ℝ) ℝ} {y : Frame String τ ℝ}
  {c : String} {X : Option (Frame String τ ℝ)} {x : Frame String τ ℝ}
  {m : UniFit (Option (PiecewiseState ℝ τ)) (Scale ℝ) τ ℝ (Tensor ℝ) ℝ}
  {mode : String → String} {kind : String → Curve}

/-- A forecaster with a piecewise linear or logistic trend and linear, log and Hill effects, with valid
parameters. -/
structure CurveSetup (days : τ → ℝ) (form : TrendForm) (p : PiecewiseParams ℝ τ) (mode : String → String)
    (kind : String → Curve) (cfg : UniConfig (Option (PiecewiseState ℝ τ)) (Scale ℝ) τ ℝ (Tensor ℝ) ℝ) : Prop where
  trend : cfg.trend = (piecewiseClass days form.suggest form.predict p).new
  squeeze : p.squeeze = true
  interval : ∃ i, p.interval = .scalar i ∧ 0 < i
  range : ∃ r, p.range = .scalar r ∧ 0 < r
  plain : Starts p
  effects : ∀ e ∈ cfg.effects, e.effect.cls = (kind e.name).cls (mode e.name)
  default : cfg.default.cls = (kind "exogenous_variables_effect").cls (mode "exogenous_variables_effect")
  names : (cfg.effects.map EffectSpec.name).Nodup
  noDefault : "exogenous_variables_effect" ∉ cfg.effects.map EffectSpec.name
  noTrend : "trend" ∉ cfg.effects.map EffectSpec.name
  regexes : ∀ e ∈ cfg.effects, ∀ r, e.regex = some r → ∃ q, cfg.compile r = .ok q

/-- The training data: one series `y` with one column `c` and at least two dates in order; `x` are the
features on the dates of `y`, with all columns of `X`. -/
structure CurveTraining (cfg : UniConfig (Option (PiecewiseState ℝ τ)) (Scale ℝ) τ ℝ (Tensor ℝ) ℝ)
    (y : Frame String τ ℝ) (c : String) (X : Option (Frame String τ ℝ)) (x : Frame String τ ℝ) : Prop where
  flat : y.nlevels = 1
  column : y.cols = [c]
  sorted : y.rows.Pairwise fun a b => a.time < b.time
  two : 2 ≤ y.rows.length
  features : ∃ x0, cfg.fitFeatures (X.getD (Frame.ofIndex y.times)) = .ok x0 ∧
    x0.locTimes y.times = .ok x
  dates : DatesIn x y.times
  columns : ∀ X', X = some X' → ∀ a ∈ X'.cols, a ∈ x.cols

/-- The targets the initial values of the trend are read off: those of `y`, divided by the scale for
count data, or the least squares line through them. -/
noncomputable def trendTargets (p : PiecewiseParams ℝ τ)
    (cfg : UniConfig (Option (PiecewiseState ℝ τ)) (Scale ℝ) τ ℝ (Tensor ℝ) ℝ)
    (y : Frame String τ ℝ) (c : String) : List ℝ :=
  match detrended p (if cfg.discrete = true then y.mapVals fun _ v => v / cfg.scale else y) with
  | .ok y' => y'.rows.map fun r => r.val c
  | .error _ => []

theorem CurveTraining.rows (hT : CurveTraining cfg y c X x) : x.rows ≠ [] := by
  intro h
  have h2 := hT.two
  match hr : y.rows, h2 with
  | a :: b :: l, _ =>
    obtain ⟨r, hr', -⟩ := hT.dates.covers a.time (by simp [Frame.times, hr])
    rw [h] at hr'
    cases hr'

theorem CurveTraining.xcols (hT : CurveTraining cfg y c X x) : ∀ a ∈ colsOf X, a ∈ x.cols := by
  intro a ha
  cases X with
  | none => cases ha
  | some X' =>
    simp only [colsOf] at ha
    split at ha
    · cases ha
    · exact hT.columns X' rfl a ha

/-- What is fitted: trend and effects. -/
theorem curves_fitted (hS : CurveSetup days form p mode kind cfg) (hmono : StrictMono days)
    (hT : CurveTraining cfg y c X x) (hfit : uniFitData cfg y X = .ok m) :
    (m.trend.cls = piecewiseClass days form.suggest form.predict p ∧ m.trend.st.1 = ⟨some (colsOf X), some true⟩ ∧
      ∃ s cs, m.trend.st.2 = some s ∧ s.cps = [cs] ∧ s.series = none ∧ s.time.nSeries = 1) ∧
    (m.fitted.map FittedEffect.name).Nodup ∧ "trend" ∉ m.fitted.map FittedEffect.name ∧
    ∀ fe ∈ m.fitted, fe.effect.cls = (kind fe.name).cls (mode fe.name) ∧
      fe.effect.st.1 = ⟨some fe.cols, some true⟩ ∧ ∀ a ∈ fe.cols, a ∈ x.cols := by
  obtain ⟨i, hi, hi0⟩ := hS.interval
  obtain ⟨r, hr, hr0⟩ := hS.range
  have hd := history_of_sorted hmono hT.sorted hT.two
  obtain ⟨hcls, s, cs, hs, hF⟩ := uni_trend (limit := _) hS.trend hi hi0 hr hT.flat hd (rangeLimit_iff.2 rfl) hfit
  obtain ⟨yT, x0, x', hyT, htf, hx0, hx, htd0, hfe, hdata0, hobjs, hya⟩ := uniFitData_ok hfit
  obtain ⟨x0', hx0', hx'⟩ := hT.features
  rw [hx0] at hx0'
  cases hx0'
  rw [hx] at hx'
  cases hx'
  obtain ⟨hn', htr'⟩ := C17_names hS.names hS.noDefault hS.noTrend hfe
  refine ⟨⟨hcls, ?_, s, cs, hs, hF.cps, hF.series, hF.one⟩, hn', htr', ?_⟩
  · rw [hS.trend] at htf
    unfold EffectObj.fit at htf
    rw [baseFit_runs (by rintro ⟨h, -⟩; cases h)] at htf
    cases hq : (piecewiseClass days form.suggest form.predict p :
        EffectClass _ _ _ τ ℝ _ _).new.cls.fit (piecewiseClass days form.suggest form.predict p :
        EffectClass _ _ _ τ ℝ _ _).new.st.2 yT X cfg.unitScale with
    | error er => rw [hq] at htf; cases htf
    | ok q =>
      rw [hq] at htf
      have htf' := Except.ok.inj htf
      rw [← htf']
  · obtain ⟨fes, hf, -, hcase⟩ := fitEffects_ok.1 hfe
    have h1 : ∀ fe ∈ fes, fe.effect.cls = (kind fe.name).cls (mode fe.name) ∧
        fe.effect.st.1 = ⟨some fe.cols, some true⟩ ∧ ∀ a ∈ fe.cols, a ∈ x.cols := fun fe hfe => by
      obtain ⟨e, he, hn, hm, hfit⟩ := exists_of_forall₂ hf hfe
      refine ⟨?_, effectFit_inputCols (x := { x with cols := fe.cols }) hT.rows hfit,
        fun a ha => (matchColumns_sublist hm).subset ha⟩
      rw [(effectFit_ok hfit).1, hn]
      exact hS.effects e he
    rcases hcase with ⟨-, h⟩ | ⟨eff, -, h2, h⟩
    · rw [h]; exact h1
    · rw [h]
      intro fe hfe
      rcases List.mem_append.1 hfe with h3 | h3
      · exact h1 fe h3
      · cases List.mem_singleton.1 h3
        refine ⟨?_, effectFit_inputCols (x := { x with cols := _ }) hT.rows h2,
          fun a ha => (mem_remaining.1 ha).1⟩
        rw [(effectFit_ok h2).1]
        exact hS.default

/-- **C118**: such a forecaster can be fitted to every series with at least two dates. -/
theorem C118_fits (hS : CurveSetup days form p mode kind cfg) (hmono : StrictMono days)
    (hT : CurveTraining cfg y c X x) (hv : form.Targets (trendTargets p cfg y c)) :
    ∃ m, uniFitData cfg y X = .ok m := by
  obtain ⟨i, hi, hi0⟩ := hS.interval
  obtain ⟨r, hr, hr0⟩ := hS.range
  -- the trend
  have hyT : ∃ yT, (if cfg.discrete = true then y.mapVals fun _ v => v / cfg.scale else y) = yT ∧
      yT.nlevels = 1 ∧ yT.cols = [c] ∧ (yT.rows.Pairwise fun a b => a.time < b.time) ∧
      2 ≤ yT.rows.length := by
    refine ⟨_, rfl, ?_⟩
    split
    · exact ⟨hT.flat, hT.column, List.pairwise_map.2 hT.sorted, by simpa [Frame.mapVals] using hT.two⟩
    · exact ⟨hT.flat, hT.column, hT.sorted, hT.two⟩
  obtain ⟨yT, hyT, hl, hc, hs, h2'⟩ := hyT
  obtain ⟨y₁, hy₁, -⟩ := hS.plain.detrended yT
  unfold trendTargets at hv
  rw [hyT, hy₁] at hv
  obtain ⟨s, hpf⟩ := form_fits hmono hi hi0 hr hr0 hS.plain hl hc hs h2' hy₁ (form := form) hv
  have hcps : s.cps ≠ [] := by
    obtain ⟨hlen, -⟩ := C34_fitted hpf (n := 1) (.inl ⟨hl.le, rfl⟩) (history_of_sorted hmono hs h2')
      (by rw [hi]; trivial) (by rw [hr]; trivial) (by
        intro k _ v hv
        rw [hi] at hv
        cases hv
        exact hi0)
    intro h
    rw [h] at hlen
    simp at hlen
  let e : EffectObj (Option (PiecewiseState ℝ τ)) (Frame String τ ℝ) (Scale ℝ) τ ℝ (Tensor ℝ) ℝ :=
    { (piecewiseClass days form.suggest form.predict p).new with
      st := (⟨some (colsOf X), some true⟩, some s) }
  have htf : cfg.trend.fit yT X cfg.unitScale = .ok e := by
    rw [hS.trend, effect_fits (s := some s) rfl]
    · show (piecewiseFit days form.suggest p yT).map some = _
      rw [hpf]
      rfl
  obtain ⟨td, htd⟩ := form_transforms (e := e) (p := p) (days := days) rfl rfl rfl hcps hT.xcols (unique y.times)
  -- the effects
  obtain ⟨x0, hx0, hx⟩ := hT.features
  have hsteps : ∃ fes, List.Forall₂ (FittedFrom cfg.compile x y cfg.effectScale) cfg.effects fes := by
    have : ∀ e ∈ cfg.effects, ∃ fe, FittedFrom cfg.compile x y cfg.effectScale e fe := by
      intro e he
      obtain ⟨cols, hcols⟩ : ∃ cols, matchColumns cfg.compile x.cols e.regex = .ok cols := by
        unfold matchColumns
        cases hre : e.regex with
        | none => exact ⟨_, rfl⟩
        | some q =>
          obtain ⟨f, hf⟩ := hS.regexes e he q hre
          simp only [bind, Except.bind, hf]
          exact ⟨_, rfl⟩
      obtain ⟨o, ho⟩ := curve_fits (hS.effects e he) y (x := { x with cols := cols }) hT.dates.flat cfg.effectScale
      exact ⟨⟨e.name, o, cols⟩, rfl, hcols, ho⟩
    generalize cfg.effects = l at this
    induction l with
    | nil => exact ⟨[], .nil⟩
    | cons a l ih =>
      obtain ⟨fe, hfe⟩ := this a (by simp)
      obtain ⟨fes, hfes⟩ := ih fun e he => this e (by simp [he])
      exact ⟨fe :: fes, .cons hfe hfes⟩
  obtain ⟨fes, hfes⟩ := hsteps
  have hfe : ∃ fitted ws, fitEffects cfg.compile cfg.effects cfg.default (some x) y cfg.effectScale
      = .ok (fitted, ws) := by
    by_cases hrest : remainingColumns x.cols (fes.flatMap FittedEffect.cols) = []
    · exact ⟨_, _, fitEffects_ok.2 ⟨fes, hfes, rfl, .inl ⟨hrest, rfl⟩⟩⟩
    · obtain ⟨o, ho⟩ := curve_fits hS.default y
        (x := { x with cols := remainingColumns x.cols (fes.flatMap FittedEffect.cols) }) hT.dates.flat
        cfg.effectScale
      exact ⟨_, _, fitEffects_ok.2 ⟨fes, hfes, rfl, .inr ⟨o, hrest, ho, rfl⟩⟩⟩
  obtain ⟨fitted, ws, hfe⟩ := hfe
  have hall : ∀ fe ∈ fitted, (∃ k md, fe.effect.cls = Curve.cls md k) ∧
      fe.effect.st.1 = ⟨some fe.cols, some true⟩ ∧ ∀ a ∈ fe.cols, a ∈ x.cols := by
    obtain ⟨fes, hf, -, hcase⟩ := fitEffects_ok.1 hfe
    have h1 : ∀ fe ∈ fes, (∃ k md, fe.effect.cls = Curve.cls md k) ∧
        fe.effect.st.1 = ⟨some fe.cols, some true⟩ ∧ ∀ a ∈ fe.cols, a ∈ x.cols := fun fe hfe => by
      obtain ⟨e, he, hn, hm, hfit⟩ := exists_of_forall₂ hf hfe
      refine ⟨⟨_, _, (effectFit_ok hfit).1.trans (hS.effects e he)⟩,
        effectFit_inputCols (x := { x with cols := fe.cols }) hT.rows hfit,
        fun a ha => (matchColumns_sublist hm).subset ha⟩
    rcases hcase with ⟨-, h⟩ | ⟨eff, -, h2, h⟩
    · rw [h]; exact h1
    · rw [h]
      intro fe hfe
      rcases List.mem_append.1 hfe with h3 | h3
      · exact h1 fe h3
      · cases List.mem_singleton.1 h3
        exact ⟨⟨_, _, (effectFit_ok h2).1.trans hS.default⟩,
          effectFit_inputCols (x := { x with cols := _ }) hT.rows h2, fun a ha => (mem_remaining.1 ha).1⟩
  have hskip : ∀ fe ∈ fitted, ∃ b, fe.effect.skip = .ok b := by
    intro fe hfe
    unfold EffectObj.skip shouldSkip
    rw [(hall fe hfe).2.1]
    exact ⟨_, rfl⟩
  obtain ⟨data, hdata⟩ := transformEffects_runs (x := x) (fh := unique y.times) (l := fitted) (out := [])
    (fun fe hfe => by
      obtain ⟨⟨k, md, h0⟩, h1, h2⟩ := hall fe hfe
      refine ⟨hskip fe hfe, { x with cols := fe.cols }, ?_⟩
      obtain ⟨d, hd⟩ := curve_transforms h0 h1 (x := { x with cols := fe.cols }) (fun a ha => ha) hT.dates.flat
        (unique y.times)
      exact ⟨d, if_pos h2, hd⟩)
  have hobjs := nonSkipped_ok hskip
  unfold uniFitData
  unfold transformEffects
  simp only [hyT, bind, Except.bind, htf, hx0, hx, htd, hfe, hdata, nonSkipped, hobjs, pure, Except.pure]
  exact ⟨_, rfl⟩

/-- The sizes of the parameters: those of the trend, and one coefficient per column of every linear effect. -/
structure CurveSizes (form : TrendForm) (kind : String → Curve) (cs : List ℝ)
    (l : List (FittedEffect (Option (PiecewiseState ℝ τ)) (Frame String τ ℝ) (Scale ℝ) τ ℝ (Tensor ℝ) ℝ))
    (θ : SiteEnv ℝ) : Prop where
  trend : form.Sites cs θ
  coefs : ∀ fe ∈ l, kind fe.name = .linear → (θ (fe.name ++ "/coefs")).data.length = fe.cols.length

/-- A run of the model on given dates succeeds exactly if log and Hill effects have one column. -/
theorem curves_run (hS : CurveSetup days form p mode kind cfg) (hmono : StrictMono days)
    (hT : CurveTraining cfg y c X x) (hfit : uniFitData cfg y X = .ok m) {s : PiecewiseState ℝ τ} {cs : List ℝ}
    (hs : m.trend.st.2 = some s) (hcs : s.cps = [cs]) {x₁ : Frame String τ ℝ} {fh : List τ} (hne : fh ≠ [])
    (hd : DatesIn x₁ fh) {td : Transformed (Tensor ℝ)} {data : PyDict (Transformed (Tensor ℝ))}
    (htd : m.trend.transform (some x₁) fh = .ok td) (hdata : transformEffects m.fitted x₁ fh = .ok data)
    {θ : SiteEnv ℝ} (hθ : CurveSizes form kind cs (kept m.fitted) θ) :
    ((∀ fe ∈ kept m.fitted, kind fe.name = .linear ∨ fe.cols.length = 1) →
      ∃ st, computeMean (m.trend.cls.call m.trend.st) td data (callsOf m.objs) θ = .ok st ∧
        st.mean.shape = [fh.length, 1] ∧ st.mean.WF) ∧
    (∀ fe ∈ kept m.fitted, ¬ (kind fe.name = .linear ∨ fe.cols.length = 1) →
      ∀ st, computeMean (m.trend.cls.call m.trend.st) td data (callsOf m.objs) θ ≠ .ok st) := by
  obtain ⟨⟨hcls, -, s', cs', hs', hcs', hser, hone⟩, hn', htr', hall⟩ := curves_fitted hS hmono hT hfit
  rw [hs] at hs'
  cases hs'
  rw [hcs] at hcs'
  cases hcs'
  obtain ⟨yT, x0, x', hyT, htf, hx0, hx, htd0, hfe, hdata0, hobjs, hya⟩ := uniFitData_ok hfit
  obtain ⟨f, h2⟩ := form_value hcls hS.squeeze hs hcs hser hone hθ.trend hd htd
  obtain ⟨hobj, hdat⟩ := transformEffects_get hn' hdata hobjs
  have hcalls : callsOf m.objs
      = (kept m.fitted).map fun fe => (fe.name, fe.effect.cls.call fe.effect.st) := by
    rw [hobj]
    simp [callsOf, Function.comp_def]
  have hsc : ∀ n, θ.scope n "coefs" = θ (n ++ "/coefs") := by
    intro n
    unfold SiteEnv.scope
    rw [String.append_assoc]
    rfl
  have htre : "trend" ∉ (callsOf m.objs).map Prod.fst := by
    rw [hcalls]
    intro h
    obtain ⟨a, ha, hb⟩ : ∃ a ∈ kept m.fitted, a.name = "trend" := by
      simpa [Function.comp_def] using h
    exact htr' (List.mem_map.2 ⟨a, List.mem_of_mem_filter ha, hb⟩)
  -- the value of one effect
  have hval : ∀ fe ∈ kept m.fitted, ∀ xc d, x₁.select fe.cols = .ok xc →
      fe.effect.transform (some xc) fh = .ok d → ∀ p : PyDict (Tensor ℝ),
      p.get? "trend" = some (columnOf (fh.map f)) →
      ((kind fe.name = .linear ∨ fe.cols.length = 1) → ∃ v, fe.effect.cls.call fe.effect.st (θ.scope fe.name) d p = .ok v ∧
        v.shape = (columnOf (fh.map f)).shape ∧ v.WF) ∧
      (¬ (kind fe.name = .linear ∨ fe.cols.length = 1) →
        fe.effect.cls.call fe.effect.st (θ.scope fe.name) d p = .error .typeError) := by
    intro fe hk xc d hxc hd' p hp
    obtain ⟨hc, hst, -⟩ := hall fe (List.mem_of_mem_filter hk)
    have hR := curve_rowEffect (S := Option (PiecewiseState ℝ τ)) (τ := τ) (kind fe.name) (mode fe.name)
    have hst' : fe.effect.st.1.inputCols = some fe.cols := by rw [hst]
    have hde := effect_rows (by rw [hc]; exact hR.atDates) (by rw [hc]; exact hR.data) hst'
      (kept_nonempty hk hst') (hd.select hxc) hd'
    rw [hde]
    exact curve_call hc (k := fe.cols.length) (by simp) (by simpa using hne)
      (fun hl => by rw [hsc]; exact hθ.coefs fe hk hl) (by simp) hp
  refine ⟨fun hone => ?_, fun fe hfe hbad st hst => ?_⟩
  · obtain ⟨rr, hrun, hsh, hwf⟩ := runMean_succeeds (pr := fun _ _ _ _ => .ok [])
      (tp := fun _ _ _ => .ok []) (effects := callsOf m.objs) (data := data) htre rfl h2
      (columnOf_wf _) (by
        intro e he
        rw [hcalls] at he
        obtain ⟨fe, hk, rfl⟩ := List.mem_map.1 he
        obtain ⟨xc, d, hxc, hd', hdd⟩ := hdat fe hk
        exact ⟨d, hdd, fun p hp => ⟨⟨_, rfl⟩, (hval fe hk xc d hxc hd' p hp).1 (hone fe hk)⟩⟩)
    obtain ⟨_, _, hok, -⟩ := runMean_ok htre hrun
    refine ⟨rr.1, hok, ?_, hwf⟩
    rw [hsh]
    simp [columnOf]
  · obtain ⟨trv, vals, htv, -, hlen, hv⟩ := C17_own_data hn' htr' hdata hobjs hst
    rw [h2] at htv
    cases htv
    obtain ⟨k, hk, rfl⟩ := List.getElem_of_mem hfe
    obtain ⟨xc, d, hxc, hd', hcall⟩ := hv k _ _ (List.getElem?_eq_getElem hk)
      (List.getElem?_eq_getElem (by omega : k < vals.length))
    rw [(hval _ hfe xc d hxc hd' _ (by simp [PyDict.get?])).2 hbad] at hcall
    cases hcall

/-- **C118**: the model can be evaluated on the training data exactly if every log and Hill effect that takes
part has one column; with several columns fitting fails. -/
theorem C118_one_column (hS : CurveSetup days form p mode kind cfg) (hmono : StrictMono days)
    (hT : CurveTraining cfg y c X x) (hfit : uniFitData cfg y X = .ok m) :
    ∃ s cs, m.trend.st.2 = some s ∧ s.cps = [cs] ∧ ∀ θ, CurveSizes form kind cs (kept m.fitted) θ →
      ((∃ st, computeMean (m.trend.cls.call m.trend.st) m.trendData m.data (callsOf m.objs) θ = .ok st) ↔
        ∀ fe ∈ kept m.fitted, kind fe.name = .linear ∨ fe.cols.length = 1) := by
  obtain ⟨⟨-, -, s, cs, hs, hcs, -, -⟩, -⟩ := curves_fitted hS hmono hT hfit
  refine ⟨s, cs, hs, hcs, fun θ hθ => ?_⟩
  obtain ⟨yT, x0, x', hyT, htf, hx0, hx, htd0, hfe, hdata0, hobjs, hya⟩ := uniFitData_ok hfit
  obtain ⟨x0', hx0', hx'⟩ := hT.features
  rw [hx0] at hx0'
  cases hx0'
  rw [hx] at hx'
  cases hx'
  have hnd : y.times.Nodup := by
    unfold Frame.times
    exact (List.pairwise_map.2 hT.sorted).imp fun h => h.ne
  rw [unique_of_nodup hnd] at htd0 hdata0
  have hne : y.times ≠ [] := by
    have := hT.two
    unfold Frame.times
    intro h
    rw [List.map_eq_nil_iff] at h
    rw [h] at this
    simp at this
  obtain ⟨h1, h2⟩ := curves_run hS hmono hT hfit hs hcs hne hT.dates htd0 hdata0 hθ
  constructor
  · rintro ⟨st, hst⟩ fe hfe
    by_contra hbad
    exact h2 fe hfe hbad st hst
  · intro h
    obtain ⟨st, hst, -⟩ := h1 h
    exact ⟨st, hst⟩

/-- **C118**: the fitted forecaster forecasts every horizon whose features have a row for each date and the
columns of the training data. -/
theorem C118_forecasts (hS : CurveSetup days form p mode kind cfg) (hmono : StrictMono days)
    (hT : CurveTraining cfg y c X x) (hfit : uniFitData cfg y X = .ok m) :
    ∃ s cs, m.trend.st.2 = some s ∧ s.cps = [cs] ∧
      ∀ (X₁ : Option (Frame String τ ℝ)) (x₁ : Frame String τ ℝ) (fh : List τ), fh ≠ [] →
      cfg.features (X₁.getD (Frame.ofIndex fh)) = .ok x₁ → DatesIn x₁ fh → (∀ a ∈ x.cols, a ∈ x₁.cols) →
      ∃ td data, uniPredictData cfg m X₁ fh = .ok (td, data) ∧
      ∀ θ, CurveSizes form kind cs (kept m.fitted) θ →
      ((∀ fe ∈ kept m.fitted, kind fe.name = .linear ∨ fe.cols.length = 1) →
        ∃ st, computeMean (m.trend.cls.call m.trend.st) td data (callsOf m.objs) θ = .ok st ∧
          st.mean.shape = [fh.length, 1] ∧ st.mean.WF) := by
  obtain ⟨⟨hcls, hst, s, cs, hs, hcs, -, -⟩, -, -, hall⟩ := curves_fitted hS hmono hT hfit
  refine ⟨s, cs, hs, hcs, ?_⟩
  intro X₁ x₁ fh hne hf hd hcx
  obtain ⟨td, htd⟩ := form_transforms hcls hst hs (by rw [hcs]; simp) (fun a ha => hcx a (hT.xcols a ha)) fh
  obtain ⟨data, hdata⟩ := transformEffects_runs (x := x₁) (fh := fh) (l := m.fitted) (out := [])
    (fun fe hfe => by
      obtain ⟨h0, h1, h2⟩ := hall fe hfe
      refine ⟨?_, { x₁ with cols := fe.cols }, ?_⟩
      · unfold EffectObj.skip shouldSkip
        rw [h1]
        exact ⟨_, rfl⟩
      obtain ⟨d, hd⟩ := curve_transforms h0 h1 (x := { x₁ with cols := fe.cols }) (fun a ha => ha) hd.flat fh
      exact ⟨d, if_pos fun a ha => hcx a (h2 a ha), hd⟩)
  refine ⟨td, data, ?_, fun θ hθ => (curves_run hS hmono hT hfit hs hcs hne hd htd hdata hθ).1⟩
  unfold uniPredictData transformEffects
  simp only [hf, bind, Except.bind, htd, hdata, pure, Except.pure]

/-! ## C117: changepoints after the history -/

theorem trendAt_single {o c : ℝ} {cs : List ℝ} (hn : cs.Nodup) (hc : c ∈ cs) (u : ℝ) :
    trendAt rampEntry o cs (cs.map fun a => if a = c then 1 else 0) u = o + rampEntry u c := by
  unfold trendAt
  congr 1
  induction cs with
  | nil => cases hc
  | cons a l ih =>
    rw [List.nodup_cons] at hn
    rcases List.mem_cons.1 hc with rfl | h
    · have : ∀ l' : List ℝ, c ∉ l' →
          (List.zipWith (fun d b => b * rampEntry u d) l' (l'.map fun a => if a = c then 1 else 0)).sum = 0 := by
        intro l' hl'
        induction l' with
        | nil => rfl
        | cons a l' ih' =>
          rw [List.mem_cons, not_or] at hl'
          simp [Ne.symm hl'.1, ih' hl'.2]
      simp [this l hn.1]
    · have : a ≠ c := fun h' => hn.1 (h' ▸ h)
      simp [this, ih hn.2 h]

/-- **C117**, the hypothesis on the range is needed: a `changepoint_range` that counts further than the history
places changepoints after it, and for some parameters the trend is flat up to such a changepoint and rises from
there. -/
theorem C117_range_past_history (hS : CurveSetup days .linear p mode kind cfg) (hmono : StrictMono days)
    (hT : CurveTraining cfg y c X x) (hfit : uniFitData cfg y X = .ok m) {i r : ℝ}
    (hi : p.interval = .scalar i) (hr : p.range = .scalar r) (k : Nat) (hk : (k : ℝ) * i < r) (hk1 : 1 ≤ (k : ℝ) * i) :
    ∃ s cs θ, m.trend.st.2 = some s ∧ s.cps = [cs] ∧ SingleSites cs θ ∧
      ∀ (X₁ x₁ : Frame String τ ℝ) (fh : List τ) (st : MeanState ℝ), Predicts cfg m θ X₁ fh x₁ st →
      ∀ (j : Nat) (t : τ), fh[j]? = some t → ∀ u, u = trendTimeOf (y.rows.map fun r => days r.time) (days t) →
        partAt st "trend" j = some (if k * i ≤ u then u - k * i + 1 else 0) := by
  obtain ⟨i', hi', hi0⟩ := hS.interval
  rw [hi] at hi'
  cases hi'
  have hd := history_of_sorted hmono hT.sorted hT.two
  obtain ⟨hcls, s, cs, hs, hF⟩ := uni_trend (limit := r) hS.trend hi hi0 hr hT.flat hd
    ⟨fun _ h => absurd h (by linarith), fun _ => rfl, fun h => absurd h (by linarith)⟩ hfit
  have hpt : PointwiseTrend m.trend (SingleSites cs) (piecewiseAt days s cs) :=
    C71_piecewise hcls hS.squeeze hs hF.cps hF.series
  obtain ⟨hM, -⟩ := C106_builtin hfit hpt hS.effects hS.default hS.names hS.noDefault hS.noTrend
  have hθ : SingleSites cs (fun n => if n = "offset" then ⟨[1], [0]⟩ else ⟨[cs.length],
      cs.map fun a => if a = k * i then 1 else 0⟩) := ⟨⟨0, rfl⟩, by simp⟩
  refine ⟨s, cs, _, hs, hF.cps, hθ, ?_⟩
  rintro X₁ x₁ fh st hp j t hj u rfl
  obtain ⟨-, t1, -⟩ := predicts_forms hM (fun n => (kind n).rowWise) hθ hp hj
  rw [t1]
  unfold piecewiseAt
  simp only [reduceIte, List.headD_cons, reduceCtorEq, String.reduceEq]
  rw [trendAt_single (hF.before.sorted.imp fun h => h.ne) ((hF.before.mem _).2 ⟨k, rfl, hk⟩), hF.time, zero_add,
    rampEntry_eq]
  congr 1
  split
  · exact max_eq_left (by linarith)
  · exact max_eq_right (by linarith)

/-! Example: a Hill effect on the columns selected by `sel`, and the default effect, linear, on the others. -/

noncomputable def exCfg118 (form : TrendForm) (sel : String → Bool) :
    UniConfig (Option (PiecewiseState ℝ Int)) (Scale ℝ) Int ℝ (Tensor ℝ) ℝ where
  compile := fun _ => .ok sel
  trend := (piecewiseClass (fun n : Int => (n : ℝ)) form.suggest form.predict exP85).new
  effects := [⟨"ads", (hillClass "additive").new, some "a"⟩]
  default := (linearClass "multiplicative").new
  fitFeatures := .ok
  features := .ok
  discrete := false
  unitScale := .float 1
  effectScale := .float 1
  scale := 1

def exKind118 (n : String) : Curve := if n = "ads" then .hill else .linear

def exMode118 (n : String) : String := if n = "ads" then "additive" else "multiplicative"

theorem exSetup118 (form : TrendForm) (sel : String → Bool) :
    CurveSetup (fun n : Int => (n : ℝ)) form exP85 exMode118 exKind118 (exCfg118 form sel) where
  trend := rfl
  squeeze := rfl
  interval := ⟨1, rfl, one_pos⟩
  range := ⟨1, rfl, one_pos⟩
  plain := .inl rfl
  effects := by
    intro e he
    fin_cases he
    rfl
  default := rfl
  names := by simp [exCfg118]
  noDefault := by simp [exCfg118]
  noTrend := by simp [exCfg118]
  regexes := fun _ _ _ _ => ⟨_, rfl⟩

/-- The columns on the dates of `exY85`. -/
noncomputable def exX118 : Frame String Int ℝ :=
  ⟨1, ["a", "b"], [⟨[], 0, fun _ => 1⟩, ⟨[], 1, fun _ => 3⟩, ⟨[], 2, fun _ => 5⟩]⟩

theorem exTraining118 (form : TrendForm) (sel : String → Bool) :
    CurveTraining (exCfg118 form sel) exY85 "y" (some exX118) exX118 where
  flat := rfl
  column := rfl
  sorted := by simp [exY85]
  two := by simp [exY85]
  features := by
    refine ⟨exX118, rfl, ?_⟩
    unfold Frame.locTimes
    rw [if_pos (by simp [exX118, exY85, Frame.times])]
    simp [exX118, exY85, Frame.times]
  dates := ⟨rfl, by simp [exX118], by simp [exY85, Frame.times], by simp [exX118, exY85, Frame.times],
    by simp [exX118]⟩
  columns := by
    rintro X' ⟨⟩ a ha
    exact ha

/-- Linear trend, logistic trend with and without a location of the capacity: all can be fitted. -/
theorem exFits118 (sel : String → Bool) : ∀ form ∈ [TrendForm.linear, .logistic none, .logistic (some 10)],
    ∃ m, uniFitData (exCfg118 form sel) exY85 (some exX118) = .ok m := by
  intro form hf
  refine C118_fits (exSetup118 form sel) Int.cast_strictMono (exTraining118 form sel) ?_
  fin_cases hf
  · trivial
  · intro v hv
    simp only [trendTargets, detrended, exP85, exCfg118, exY85, List.map_cons, List.map_nil, Bool.false_eq_true, if_false] at hv
    fin_cases hv <;> norm_num
  · intro v hv
    simp only [trendTargets, detrended, exP85, exCfg118, exY85, List.map_cons, List.map_nil, List.head?_cons, Bool.false_eq_true,
      if_false] at hv
    rcases hv with hv | hv
    · cases hv; norm_num
    · cases hv; norm_num

/-- If the Hill effect gets one column, it and the default effect take part with one column each. -/
theorem exOne118 {form : TrendForm} {m : UniFit (Option (PiecewiseState ℝ Int)) (Scale ℝ) Int ℝ (Tensor ℝ) ℝ}
    (hfit : uniFitData (exCfg118 form (· = "a")) exY85 (some exX118) = .ok m) :
    (kept m.fitted).map (fun fe => (fe.name, fe.cols)) = [("ads", ["a"]), ("exogenous_variables_effect", ["b"])] := by
  obtain ⟨yT, x0, x', hyT, htf, hx0, hx, htd0, hfe, hdata0, hobjs, hya⟩ := uniFitData_ok hfit
  obtain ⟨x0', hx0', hx'⟩ := (exTraining118 form (· = "a")).features
  rw [hx0] at hx0'
  cases hx0'
  rw [hx] at hx'
  cases hx'
  obtain ⟨l, w, hl, hk⟩ : ∃ l w, fitEffects (exCfg118 form (· = "a")).compile (exCfg118 form (· = "a")).effects
      (exCfg118 form (· = "a")).default (some exX118) exY85 (exCfg118 form (· = "a")).effectScale = .ok (l, w) ∧
      (kept l).map (fun fe => (fe.name, fe.cols)) = [("ads", ["a"]), ("exogenous_variables_effect", ["b"])] :=
    ⟨_, _, rfl, rfl⟩
  rw [hl] at hfe
  cases hfe
  exact hk

/-- If it gets both columns, it takes part with two. -/
theorem exTwo118 {form : TrendForm} {m : UniFit (Option (PiecewiseState ℝ Int)) (Scale ℝ) Int ℝ (Tensor ℝ) ℝ}
    (hfit : uniFitData (exCfg118 form fun _ => true) exY85 (some exX118) = .ok m) :
    (kept m.fitted).map (fun fe => (fe.name, fe.cols)) = [("ads", ["a", "b"])] := by
  obtain ⟨yT, x0, x', hyT, htf, hx0, hx, htd0, hfe, hdata0, hobjs, hya⟩ := uniFitData_ok hfit
  obtain ⟨x0', hx0', hx'⟩ := (exTraining118 form fun _ => true).features
  rw [hx0] at hx0'
  cases hx0'
  rw [hx] at hx'
  cases hx'
  obtain ⟨l, w, hl, hk⟩ : ∃ l w, fitEffects (exCfg118 form fun _ => true).compile
      (exCfg118 form fun _ => true).effects (exCfg118 form fun _ => true).default (some exX118) exY85
      (exCfg118 form fun _ => true).effectScale = .ok (l, w) ∧
      (kept l).map (fun fe => (fe.name, fe.cols)) = [("ads", ["a", "b"])] :=
    ⟨_, _, rfl, rfl⟩
  rw [hl] at hfe
  cases hfe
  exact hk

/-- Parameters for changepoints `cs`. -/
noncomputable def exθ118 (cs : List ℝ) : SiteEnv ℝ := fun s =>
  if s = "offset" then ⟨[1], [1]⟩
  else if s = "changepoint_coefficients" then ⟨[cs.length], cs.map fun _ => 2⟩
  else if s = "capacity" then ⟨[1, 1, 1], [10]⟩
  else if s = "exogenous_variables_effect/coefs" then ⟨[1], [1 / 10]⟩ else ⟨[], [1]⟩

theorem exSites118 (form : TrendForm) (cs : List ℝ) : form.Sites cs (exθ118 cs) := by
  have : SingleSites cs (exθ118 cs) := ⟨⟨1, rfl⟩, by simp [exθ118]⟩
  cases form with
  | linear => exact this
  | logistic loc => exact ⟨this, 10, rfl⟩

/-- With one column the logistic forecaster forecasts the next two dates. -/
example : ∃ m, uniFitData (exCfg118 (.logistic none) (· = "a")) exY85 (some exX118) = .ok m ∧
    ∃ θ X' x st, Predicts (exCfg118 (.logistic none) (· = "a")) m θ X' [3, 4] x st ∧
      st.mean.shape = [2, 1] := by
  obtain ⟨m, hm⟩ := exFits118 (· = "a") (.logistic none) (by simp)
  have hone := exOne118 hm
  refine ⟨m, hm, ?_⟩
  obtain ⟨s, cs, -, -, h⟩ := C118_forecasts (exSetup118 _ _) Int.cast_strictMono (exTraining118 _ _) hm
  have hX : DatesIn (⟨1, ["a", "b"], [⟨[], 3, fun _ => 1⟩, ⟨[], 4, fun _ => 3⟩]⟩ : Frame String Int ℝ) [3, 4] :=
    ⟨rfl, by simp, by simp, by simp, by simp⟩
  obtain ⟨td, data, h1, h2⟩ := h (some _) _ [3, 4] (by simp) rfl hX (fun a ha => ha)
  have hnames : ∀ fe ∈ kept m.fitted, (fe.name, fe.cols) = ("ads", ["a"]) ∨
      (fe.name, fe.cols) = ("exogenous_variables_effect", ["b"]) := by
    intro fe hfe
    have : (fe.name, fe.cols) ∈ (kept m.fitted).map fun fe => (fe.name, fe.cols) := List.mem_map_of_mem hfe
    rw [hone] at this
    simpa using this
  obtain ⟨st, hst, hsh, -⟩ := h2 (exθ118 cs) ⟨exSites118 _ _, fun fe hfe hl => by
      rcases hnames fe hfe with h | h
      · simp only [Prod.mk.injEq] at h
        rw [h.1] at hl
        simp [exKind118] at hl
      · simp only [Prod.mk.injEq] at h
        rw [h.1, h.2]
        rfl⟩ (by
    intro fe hfe
    right
    rcases hnames fe hfe with h | h <;> simp only [Prod.mk.injEq] at h <;> rw [h.2] <;> rfl)
  exact ⟨_, _, _, st, ⟨rfl, hX, td, data, h1, hst⟩, hsh⟩

/-- With two columns no parameters give a value. -/
example : ∃ m, uniFitData (exCfg118 (.logistic none) fun _ => true) exY85 (some exX118) = .ok m ∧
    ∃ θ, ∀ st, computeMean (m.trend.cls.call m.trend.st) m.trendData m.data (callsOf m.objs) θ ≠ .ok st := by
  obtain ⟨m, hm⟩ := exFits118 (fun _ => true) (.logistic none) (by simp)
  have htwo := exTwo118 hm
  refine ⟨m, hm, ?_⟩
  obtain ⟨s, cs, -, -, h⟩ := C118_one_column (exSetup118 _ _) Int.cast_strictMono (exTraining118 _ _) hm
  have hnames : ∀ fe ∈ kept m.fitted, (fe.name, fe.cols) = ("ads", ["a", "b"]) := by
    intro fe hfe
    have : (fe.name, fe.cols) ∈ (kept m.fitted).map fun fe => (fe.name, fe.cols) := List.mem_map_of_mem hfe
    rw [htwo] at this
    simpa using this
  refine ⟨exθ118 cs, fun st hst => ?_⟩
  have hall := (h (exθ118 cs) ⟨exSites118 _ _, fun fe hfe hl => by
    have h := hnames fe hfe
    simp only [Prod.mk.injEq] at h
    rw [h.1] at hl
    simp [exKind118] at hl⟩).1 ⟨st, hst⟩
  cases hk : kept m.fitted with
  | nil => rw [hk] at htwo; simp at htwo
  | cons fe l =>
    have hfe : fe ∈ kept m.fitted := by simp [hk]
    have h1 := hnames fe hfe
    simp only [Prod.mk.injEq] at h1
    have h2 := hall fe hfe
    rw [h1.1, h1.2] at h2
    simp [exKind118] at h2

/-- The forecasters of the example are those of C117. -/
theorem exExtrapolates117 (form : TrendForm) (sel : String → Bool) :
    Extrapolates (fun n : Int => (n : ℝ)) form.suggest form.predict exP85 exMode118 exKind118 (exCfg118 form sel)
      exY85 [0, 1, 2] where
  trend := rfl
  squeeze := rfl
  interval := ⟨1, rfl, one_pos⟩
  range := ⟨1, 1, rfl, ⟨fun _ h => absurd h (by norm_num), fun _ => rfl, fun h => absurd h (by norm_num)⟩,
    by norm_num⟩
  effects := (exSetup118 form sel).effects
  default := rfl
  names := (exSetup118 form sel).names
  noDefault := (exSetup118 form sel).noDefault
  noTrend := (exSetup118 form sel).noTrend
  flat := rfl
  days := ⟨by simp [exY85, unique], by simp, by simp⟩

/-- C117 for the logistic forecaster of the example: it has a positive sum of coefficients. -/
example : ∃ m, uniFitData (exCfg118 (.logistic none) (· = "a")) exY85 (some exX118) = .ok m ∧
    ∃ T : Int → ℝ, (∀ t, 0 < T t ∧ T t < 10) := by
  obtain ⟨m, hm⟩ := exFits118 (· = "a") (.logistic none) (by simp)
  refine ⟨m, hm, ?_⟩
  obtain ⟨s, cs, -, -, h⟩ := C117_saturates (exExtrapolates117 (.logistic none) (· = "a")) hm
  obtain ⟨T, hT, -⟩ := h (exθ118 cs) 10 (exSites118 .linear cs) rfl (by norm_num)
  exact ⟨T, hT⟩

/-- Three dates and changepoints up to step 9. -/
noncomputable def exP117 : PiecewiseParams ℝ Int := ⟨.scalar 1, .scalar 10, .scalar 2, true, none⟩

noncomputable def exCfg117 : UniConfig (Option (PiecewiseState ℝ Int)) (Scale ℝ) Int ℝ (Tensor ℝ) ℝ :=
  { exCfg118 .linear (· = "a") with
    trend := (piecewiseClass (fun n : Int => (n : ℝ)) suggestLinear piecewisePredict exP117).new }

/-- There is a forecaster trained on the dates 0, 1, 2 whose trend can be flat up to date 8 and rise from
date 9. -/
example : ∃ m, uniFitData exCfg117 exY85 (some exX118) = .ok m ∧
    ∃ s cs θ, m.trend.st.2 = some s ∧ s.cps = [cs] ∧ SingleSites cs θ ∧
      ∀ (X₁ x₁ : Frame String Int ℝ) (fh : List Int) (st : MeanState ℝ), Predicts exCfg117 m θ X₁ fh x₁ st →
      ∀ (j : Nat) (t : Int), fh[j]? = some t → partAt st "trend" j = some (if 9 ≤ t then (t : ℝ) - 8 else 0) := by
  have hS : CurveSetup (fun n : Int => (n : ℝ)) .linear exP117 exMode118 exKind118 exCfg117 :=
    { exSetup118 .linear (· = "a") with
      trend := rfl
      squeeze := rfl
      plain := .inl rfl
      interval := ⟨1, rfl, one_pos⟩
      range := ⟨10, rfl, by norm_num⟩ }
  have hT : CurveTraining exCfg117 exY85 "y" (some exX118) exX118 := { exTraining118 .linear (· = "a") with }
  obtain ⟨m, hm⟩ := C118_fits hS Int.cast_strictMono hT trivial
  refine ⟨m, hm, ?_⟩
  obtain ⟨s, cs, θ, h1, h2, h3, h4⟩ := C117_range_past_history hS Int.cast_strictMono hT hm rfl rfl 9 (by norm_num)
    (by norm_num)
  refine ⟨s, cs, θ, h1, h2, h3, fun X₁ x₁ fh st hp j t hj => ?_⟩
  rw [h4 X₁ x₁ fh st hp j t hj t (by simp [trendTimeOf, exY85]; norm_num)]
  congr 1
  by_cases h : (9 : Int) ≤ t
  · have : (9 : ℝ) ≤ t := by exact_mod_cast h
    rw [if_pos (by simpa using this), if_pos h]
    push_cast
    ring
  · have : ¬ (9 : ℝ) ≤ t := by exact_mod_cast h
    rw [if_neg (by simpa using this), if_neg h]

end
end PV
