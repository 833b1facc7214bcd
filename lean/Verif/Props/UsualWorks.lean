import Verif.Props.TrendFitted
import Verif.Props.UsualDefined
import Verif.Spec.Starts

/-!
# C98: valid data can be fitted and forecast
-/

set_option linter.unusedSectionVars false

namespace PV
open Tensor

section
variable {τ : Type} [LinearOrder τ]

theorem history_of_sorted {days : τ → ℝ} (hmono : StrictMono days) {y : Frame String τ ℝ}
    (hys : y.rows.Pairwise fun a b => a.time < b.time) (h2 : 2 ≤ y.rows.length) :
    HistoryDays days y (y.rows.map fun r => days r.time) := by
  have hs : (y.rows.map Row.time).Pairwise (· < ·) := List.pairwise_map.2 hys
  refine ⟨?_, by simpa using h2, ?_⟩
  · rw [unique_of_nodup (hs.imp fun h => h.ne), List.map_map]
    rfl
  · exact List.pairwise_map.2 (hys.imp fun h => hmono h)

/-- The trend of one series with at least two dates can be fitted. -/
theorem piecewise_fits {days : τ → ℝ} (hmono : StrictMono days) {p : PiecewiseParams ℝ τ} {i r : ℝ}
    (hi : p.interval = .scalar i) (hi0 : 0 < i) (hr : p.range = .scalar r) (hr0 : 0 < r)
    (hdt : Starts p) {y : Frame String τ ℝ} {c : String} (hyl : y.nlevels = 1)
    (hyc : y.cols = [c]) (hys : y.rows.Pairwise fun a b => a.time < b.time)
    (h2 : 2 ≤ y.rows.length) : ∃ s, piecewiseFit days suggestLinear p y = .ok s := by
  have hd := history_of_sorted hmono hys h2
  have hu : unique (y.rows.map Row.time) = y.rows.map Row.time :=
    unique_of_nodup ((List.pairwise_map.2 hys).imp fun h => h.ne)
  obtain ⟨b1, b2⟩ := trendTimeOf_bounds hd.two hd.increasing
  set ds := y.rows.map fun r => days r.time with hds
  obtain ⟨y', hy', hl', hc', hi'⟩ := hdt.detrended y
  have ht' : y'.rows.map Row.time = y.rows.map Row.time := by
    simpa [Frame.index, Function.comp_def] using congrArg (List.map Prod.snd) hi'
  have hya : y'.seriesToTensor = .ok ⟨[1, y'.rows.length, 1], y'.flatVals y'.rows⟩ := by
    unfold Frame.seriesToTensor
    rw [if_neg (by simp [hc', hyc]), if_pos (hl'.trans hyl), hc', hyc]
    rfl
  have hsug : ∃ s, suggestLinear ((unique (y'.rows.map Row.time)).map fun t => trendTimeOf ds (days t))
      ⟨[1, y'.rows.length, 1], y'.flatVals y'.rows⟩ = .ok s := by
    rw [ht']
    have hinc : ((y.rows.map Row.time).map fun t => trendTimeOf ds (days t)).Pairwise (· < ·) := by
      rw [List.map_map]
      refine List.pairwise_map.2 (hys.imp fun {a b} h => ?_)
      have hpos : 0 < ds.getLastD 0 - ds.headD 0 := by
        have h3 := hd.increasing
        match ds, hd.two with
        | d :: e :: l, _ =>
          have := (List.pairwise_cons.1 h3).1 _ (getLastD_mem (l := e :: l) (a := d) (by simp))
          have hg : (d :: e :: l).getLastD 0 = (e :: l).getLastD d := by simp only [List.getLastD_cons]
          rw [hg]
          exact sub_pos.2 this
      have hlen : 0 < (ds.length : ℝ) - 1 := by
        have : (2 : ℝ) ≤ ds.length := by exact_mod_cast hd.two
        linarith
      simp only [Function.comp, trendTimeOf]
      have := hmono h
      gcongr
    rw [hu]
    have hl : 2 ≤ ((y.rows.map Row.time).map fun t => trendTimeOf ds (days t)).length := by simpa using h2
    generalize ((y.rows.map Row.time).map fun t => trendTimeOf ds (days t)) = ts at hinc hl
    match ts, hl with
    | a :: b :: l, _ =>
      unfold suggestLinear
      have hlast : (a :: b :: l).getLast? = some ((b :: l).getLast (by simp)) := by
        rw [List.getLast?_eq_some_getLast (by simp)]
        simp
      simp only [List.head?_cons, hlast]
      rw [if_neg]
      · exact ⟨_, rfl⟩
      · exact ((List.pairwise_cons.1 hinc).1 _ (List.getLast_mem _)).ne
  obtain ⟨s, hs⟩ := hsug
  have key := (C34_fit_fails (p := p) (n := 1) (.inl ⟨hyl.le, rfl⟩) hd (by rw [hi]; trivial)
    (by rw [hr]; trivial) (by
      intro k _ v hv
      rw [hi] at hv
      cases hv
      exact hi0) (y' := y') hy' hya hs).2
  cases hf : piecewiseFit days suggestLinear p y with
  | ok s => exact ⟨s, rfl⟩
  | error e =>
    obtain ⟨k, hk, r', limit, hr', hlim, hle⟩ := key.1 ⟨e, hf⟩
    rw [hr] at hr'
    cases hr'
    exfalso
    have h2' : (2 : ℝ) ≤ ds.length := by exact_mod_cast hd.two
    by_cases h1 : r < 1
    · have := hlim.fraction hr0 h1
      have : 0 < limit := by rw [this]; exact mul_pos hr0 (by linarith)
      linarith
    · have := hlim.count (not_lt.1 h1)
      linarith


theorem effect_fits {S Y Sc D : Type} {e : EffectObj S Y Sc τ ℝ D ℝ}
    (htag : e.cls.tags.supportsMultivariate = true) {y : Y} {X : Option (Frame String τ ℝ)} {sc : Sc}
    {s : S} (h : e.cls.fit e.st.2 y X sc = .ok s) :
    e.fit y X sc = .ok { e with st := (⟨some (colsOf X), some true⟩, s) } := by
  unfold EffectObj.fit
  rw [baseFit_runs (h := e.cls.toHooks) (by rintro ⟨h1, -⟩; rw [htag] at h1; cases h1), h]
  rfl

variable {position : τ → ℤ} {compile : String → PyM (String → Bool)}
  {order : List String → List String}

/-- The seasons have enough steps for their waves. -/
def EffectKind.Valid : EffectKind → Prop
  | .seasonal ss _ _ => ∀ s ∈ ss, (s.terms : ℝ) ≤ s.sp / 2
  | .linear .. => True

/-- A valid seasonality or linear effect can be fitted. -/
theorem kind_fits (k : EffectKind) (hv : k.Valid) (y : Frame String τ ℝ) {x : Frame String τ ℝ}
    (hlv : x.nlevels = 1) (sc : Scale ℝ) :
    ∃ e, (k.effect position compile order).clone.fit y (some x) sc = .ok e := by
  cases k with
  | linear mode prior =>
    simp only [EffectKind.effect, embed_clone]
    rw [embed_fit, effect_fits (s := ()) rfl rfl]
    exact ⟨_, rfl⟩
  | seasonal ss mode s =>
    simp only [EffectKind.effect, embed_clone]
    obtain ⟨φ, hφ⟩ : ∃ φ, (fourierFeatures position ss).fit x = .ok φ ∧
        φ.map Prod.fst = x.series := by
      unfold fourierFeatures
      simp only
      rw [if_pos (by exact hv)]
      exact ⟨_, rfl, by simp [Function.comp_def]⟩
    obtain ⟨x1, hx1, hl1⟩ : ∃ x1, (fourierFeatures position ss).transform φ x = .ok x1 ∧
        x1.nlevels = 1 := by
      unfold fourierFeatures
      simp only
      rw [if_pos (by
        intro r hr
        rw [hφ.2]
        exact mem_unique.2 (List.mem_map.2 ⟨r, hr, rfl⟩))]
      exact ⟨_, rfl, hlv⟩
    have hex : fourierExpand compile order none x1 = .ok (none, x1) := by
      unfold fourierExpand
      rw [if_neg (by rw [hl1]; rintro ⟨h, -⟩; omega)]
      rfl
    rw [embed_fit, effect_fits (s := ⟨some φ, none, some ⟨some (if x1.isEmpty then [] else x1.cols), some true⟩⟩) rfl]
    · exact ⟨_, rfl⟩
    · simp only [EffectObj.clone, fourierNew, fourierClass, fourierHooks, fourierMade, bind, Except.bind,
        hφ.1, hx1, hex, pure, Except.pure, baseFit, defaultHooks]
      rw [if_neg (by rintro ⟨h, -⟩; cases h)]

/-- The data of a fitted seasonality or linear effect can be computed for every frame with the
columns. -/
theorem kind_transforms (k : EffectKind) {y : Frame String τ ℝ} {x : Frame String τ ℝ} {cols : List String}
    {sc : Scale ℝ} {e : EffectObj (UsualAttrs τ) (Frame String τ ℝ) (Scale ℝ) τ ℝ (AnyData ℝ) ℝ}
    (hfit : (k.effect position compile order).clone.fit y (some { x with cols := cols }) sc = .ok e)
    (hlv : x.nlevels = 1) (hrows : x.rows ≠ []) (hsid : ∀ r ∈ x.rows, r.sid = [])
    {x' : Frame String τ ℝ} (hcols : ∀ c ∈ cols, c ∈ x'.cols) (hlv' : x'.nlevels = 1)
    (hsid' : ∀ r ∈ x'.rows, r.sid = []) (fh : List τ) : ∃ d, e.transform (some x') fh = .ok d := by
  cases k with
  | linear mode prior =>
    simp only [EffectKind.effect, embed_clone] at hfit
    have hst := effectFit_inputCols (by exact hrows) hfit
    obtain ⟨e0, h0, rfl⟩ := embed_fit_ok hfit
    have hc : e0.cls = linearClass mode := (effectFit_ok h0).1
    rw [embed_transform]
    unfold EffectObj.transform
    rw [baseTransform_eq _ (st := e0.st) (cs := cols) hst]
    rw [if_pos hcols]
    split
    · exact ⟨_, rfl⟩
    rw [hc]
    simp only [linearClass, Frame.seriesToTensorOrArray]
    rw [if_pos (by exact hlv')]
    exact ⟨_, rfl⟩
  | seasonal ss mode s =>
    simp only [EffectKind.effect, embed_clone] at hfit
    have hst := effectFit_inputCols (by exact hrows) hfit
    obtain ⟨e0, h0, rfl⟩ := embed_fit_ok hfit
    obtain ⟨hc, φ, x1, ex, hφ, hx1, hex, hst2⟩ := fourier_fitted h0
    have hx1l : x1.nlevels = 1 := by
      rw [fourierFeatures_byDate position ss φ _ x1 hx1]
      exact hlv
    unfold fourierExpand at hex
    rw [if_neg (by rw [hx1l]; rintro ⟨h, -⟩; omega)] at hex
    cases hex
    rw [embed_transform]
    unfold EffectObj.transform
    rw [baseTransform_eq _ (st := e0.st) (cs := cols) hst]
    rw [if_pos hcols]
    split
    · exact ⟨_, rfl⟩
    rw [hc]
    have hkeys : φ.map Prod.fst = x.series := by
      unfold fourierFeatures at hφ
      simp only at hφ
      split at hφ
      · cases hφ
        simp [Function.comp_def, Frame.series]
      · cases hφ
    have hmem : [] ∈ x.series := by
      cases hr : x.rows with
      | nil => exact absurd hr hrows
      | cons a l =>
        refine mem_unique.2 (List.mem_map.2 ⟨a, by simp [hr], hsid a (by simp [hr])⟩)
    obtain ⟨z, hz, hzl, hzc⟩ : ∃ z, (fourierFeatures position ss).transform φ
        { x'.filterTimes fh with cols := cols } = .ok z ∧ z.nlevels = 1 ∧ z.cols = x1.cols := by
      have hx1c : x1.cols = unique ((waves ss).map Wave.name) := by
        rw [fourierFeatures_byDate position ss φ _ x1 hx1]
        rfl
      unfold fourierFeatures
      simp only
      rw [if_pos (by
        intro r hr
        rw [hkeys, hsid' r (List.mem_of_mem_filter hr)]
        exact hmem)]
      exact ⟨_, rfl, hlv', hx1c.symm⟩
    simp only [fourierClass, fourierHooks, fourierTags, if_true, hst2, hz, bind, Except.bind, pure,
      Except.pure]
    rw [baseTransform_eq _ (cs := if x1.isEmpty = true then [] else x1.cols) rfl]
    have hin : ∀ c ∈ (if x1.isEmpty = true then [] else x1.cols), c ∈ z.cols := by
      intro c hc
      rw [hzc]
      split at hc
      · cases hc
      · exact hc
    generalize (if x1.isEmpty = true then [] else x1.cols) = cz at hin ⊢
    rw [if_pos hin]
    split
    · exact ⟨_, rfl⟩
    simp only [defaultHooks, Frame.seriesToTensorOrArray]
    rw [if_pos (by exact hzl)]
    exact ⟨_, rfl⟩


theorem kind_inputCols (k : EffectKind) {y : Frame String τ ℝ} {x : Frame String τ ℝ} {cols : List String}
    {sc : Scale ℝ} {e : EffectObj (UsualAttrs τ) (Frame String τ ℝ) (Scale ℝ) τ ℝ (AnyData ℝ) ℝ}
    (hfit : (k.effect position compile order).clone.fit y (some { x with cols := cols }) sc = .ok e)
    (hrows : x.rows ≠ []) : e.st.1.inputCols = some cols := by
  cases k with
  | linear mode prior =>
    simp only [EffectKind.effect, embed_clone] at hfit
    exact congrArg BaseState.inputCols (effectFit_inputCols (by exact hrows) hfit)
  | seasonal ss mode s =>
    simp only [EffectKind.effect, embed_clone] at hfit
    exact congrArg BaseState.inputCols (effectFit_inputCols (by exact hrows) hfit)

theorem transformEffects_runs {S Y Sc D : Type} {x : Frame String τ ℝ} {fh : List τ} :
    ∀ {l : List (FittedEffect S Y Sc τ ℝ D ℝ)} {out : PyDict (Transformed D)},
    (∀ fe ∈ l, (∃ b, fe.effect.skip = .ok b) ∧ ∃ xc d, x.select fe.cols = .ok xc ∧
      fe.effect.transform (some xc) fh = .ok d) →
    ∃ data, l.foldlM (transformStep x fh) out = .ok data
  | [], out, _ => ⟨out, rfl⟩
  | fe :: l, out, h => by
    obtain ⟨⟨b, hb⟩, xc, d, hxc, hd⟩ := h fe (by simp)
    rw [List.foldlM_cons]
    have ih := fun out => transformEffects_runs (l := l) (out := out) fun fe' hfe' => h fe' (by simp [hfe'])
    cases b with
    | true =>
      simp only [transformStep, hb, bind, Except.bind, if_true, pure, Except.pure]
      exact ih _
    | false =>
      simp only [transformStep, hb, bind, Except.bind, hxc, hd, pure, Except.pure, Bool.false_eq_true,
        if_false]
      exact ih _

variable {days : τ → ℝ} {p : PiecewiseParams ℝ τ} {kind : String → EffectKind}
  {cfg : UniConfig (UsualAttrs τ) (Scale ℝ) τ ℝ (AnyData ℝ) ℝ} {y : Frame String τ ℝ} {c : String}
  {X : Option (Frame String τ ℝ)} {x : Frame String τ ℝ}
  {m : UniFit (UsualAttrs τ) (Scale ℝ) τ ℝ (AnyData ℝ) ℝ}

/-- Valid parameters: a positive interval and range of changepoints, seasons with enough steps,
regular expressions that compile. -/
structure ValidParams (p : PiecewiseParams ℝ τ) (kind : String → EffectKind)
    (cfg : UniConfig (UsualAttrs τ) (Scale ℝ) τ ℝ (AnyData ℝ) ℝ) : Prop where
  interval : ∀ i, p.interval = .scalar i → 0 < i
  range : ∀ r, p.range = .scalar r → 0 < r
  plain : Starts p
  seasons : ∀ n, (kind n).Valid
  regexes : ∀ e ∈ cfg.effects, ∀ r, e.regex = some r → ∃ q, cfg.compile r = .ok q

theorem trend_data_runs {e : EffectObj (Option (PiecewiseState ℝ τ)) (Frame String τ ℝ) (Scale ℝ) τ ℝ (Tensor ℝ) ℝ}
    {suggest : List ℝ → Tensor ℝ → PyM (List ℝ × List ℝ)} {cols : List String}
    (hc : e.cls = piecewiseClass days suggest piecewisePredict p) (hst : e.st.1 = ⟨some cols, some true⟩)
    {s : PiecewiseState ℝ τ} (hs : e.st.2 = some s) (hcps : s.cps ≠ []) {x : Frame String τ ℝ}
    (hcols : ∀ a ∈ cols, a ∈ x.cols) (fh : List τ) : ∃ d, e.transform (some x) fh = .ok d := by
  unfold EffectObj.transform
  rw [baseTransform_eq _ hst, if_pos hcols, hc, hs]
  simp only [piecewiseClass, trendTags, Bool.and_false, if_true, Bool.false_eq_true, if_false,
    piecewiseTransform, changepointMatrix, changepointTensor, hcps, bind, Except.bind]
  split <;> exact ⟨_, rfl⟩

/-- **C98**: a forecaster with valid parameters can be fitted to every series with at least two
dates whose features have all columns of `X`. -/
theorem C98_fits (hU : Usual position compile order days suggestLinear p kind cfg)
    (hV : ValidParams p kind cfg) (hmono : StrictMono days) (hT : Training cfg y c X x)
    (h2 : 2 ≤ y.rows.length) (hX : ∀ X', X = some X' → ∀ a ∈ X'.cols, a ∈ x.cols) :
    ∃ m, uniFitData cfg y X = .ok m := by
  obtain ⟨i, hi⟩ := hU.interval
  obtain ⟨r, hr⟩ := hU.range
  -- the trend
  have hyT : ∃ yT, (if cfg.discrete = true then y.mapVals fun _ v => v / cfg.scale else y) = yT ∧
      yT.nlevels = 1 ∧ yT.cols = [c] ∧ (yT.rows.Pairwise fun a b => a.time < b.time) ∧
      2 ≤ yT.rows.length := by
    refine ⟨_, rfl, ?_⟩
    split
    · refine ⟨hT.flat, hT.column, ?_, by simpa [Frame.mapVals] using h2⟩
      exact List.pairwise_map.2 hT.sorted
    · exact ⟨hT.flat, hT.column, hT.sorted, h2⟩
  obtain ⟨yT, hyT, hl, hc, hs, h2'⟩ := hyT
  obtain ⟨s, hpf⟩ := piecewise_fits hmono hi (hV.interval i hi) hr (hV.range r hr) hV.plain hl hc hs h2'
  have hcps : s.cps ≠ [] := by
    obtain ⟨hlen, -⟩ := C34_fitted hpf (n := 1) (.inl ⟨hl.le, rfl⟩) (history_of_sorted hmono hs h2')
      (by rw [hi]; trivial) (by rw [hr]; trivial) (by
        intro k _ v hv
        rw [hi] at hv
        cases hv
        exact hV.interval i hi)
    intro h
    rw [h] at hlen
    simp at hlen
  let e : EffectObj (Option (PiecewiseState ℝ τ)) (Frame String τ ℝ) (Scale ℝ) τ ℝ (Tensor ℝ) ℝ :=
    { (piecewiseClass days suggestLinear piecewisePredict p).new with
      st := (⟨some (colsOf X), some true⟩, some s) }
  have htf : cfg.trend.fit yT X cfg.unitScale = .ok (e.embed Attrs.piecewiseEmb AnyData.arrayEmb) := by
    rw [hU.trend, embed_fit, effect_fits (s := some s) rfl]
    · rfl
    · show (piecewiseFit days suggestLinear p yT).map some = _
      rw [hpf]
      rfl
  have hcolsX : ∀ a ∈ colsOf X, a ∈ x.cols := by
    intro a ha
    cases X with
    | none => cases ha
    | some X' =>
      simp only [colsOf] at ha
      split at ha
      · cases ha
      · exact hX X' rfl a ha
  obtain ⟨td, htd⟩ := trend_data_runs (e := e) (p := p) (days := days) (suggest := suggestLinear) rfl rfl
    rfl hcps hcolsX (unique y.times)
  -- the effects
  obtain ⟨x0, hx0, hx⟩ := hT.features
  have hsteps : ∃ fes, List.Forall₂ (FittedFrom cfg.compile x y cfg.effectScale) cfg.effects fes := by
    have : ∀ e ∈ cfg.effects, ∃ fe, FittedFrom cfg.compile x y cfg.effectScale e fe := by
      intro e he
      obtain ⟨cols, hcols⟩ : ∃ cols, matchColumns cfg.compile x.cols e.regex = .ok cols := by
        unfold matchColumns
        cases hre : e.regex with
        | none => exact ⟨_, rfl⟩
        | some q =>
          obtain ⟨f, hf⟩ := hV.regexes e he q hre
          simp only [bind, Except.bind, hf]
          exact ⟨_, rfl⟩
      obtain ⟨o, ho⟩ := kind_fits (position := position) (compile := compile) (order := order) (kind e.name)
        (hV.seasons e.name) y (x := { x with cols := cols }) hT.dates.flat cfg.effectScale
      refine ⟨⟨e.name, o, cols⟩, rfl, hcols, ?_⟩
      rw [hU.effects e he]
      exact ho
    generalize cfg.effects = l at this
    induction l with
    | nil => exact ⟨[], .nil⟩
    | cons a l ih =>
      obtain ⟨fe, hfe⟩ := this a (by simp)
      obtain ⟨fes, hfes⟩ := ih fun e he => this e (by simp [he])
      exact ⟨fe :: fes, .cons hfe hfes⟩
  obtain ⟨fes, hfes⟩ := hsteps
  have hfe : ∃ fitted ws, fitEffects cfg.compile cfg.effects cfg.default (some x) y cfg.effectScale
      = .ok (fitted, ws) := by
    by_cases hrest : remainingColumns x.cols (fes.flatMap FittedEffect.cols) = []
    · exact ⟨_, _, fitEffects_ok.2 ⟨fes, hfes, rfl, .inl ⟨hrest, rfl⟩⟩⟩
    · obtain ⟨o, ho⟩ := kind_fits (position := position) (compile := compile) (order := order)
        (kind "exogenous_variables_effect") (hV.seasons _) y
        (x := { x with cols := remainingColumns x.cols (fes.flatMap FittedEffect.cols) }) hT.dates.flat
        cfg.effectScale
      exact ⟨_, _, fitEffects_ok.2 ⟨fes, hfes, rfl, .inr ⟨o, hrest, by rw [hU.default]; exact ho, rfl⟩⟩⟩
  obtain ⟨fitted, ws, hfe⟩ := hfe
  have hall : ∀ fe ∈ fitted, ((kind fe.name).effect position compile order).clone.fit y
      (some { x with cols := fe.cols }) cfg.effectScale = .ok fe.effect ∧ ∀ a ∈ fe.cols, a ∈ x.cols := by
    obtain ⟨fes, hf, -, hcase⟩ := fitEffects_ok.1 hfe
    have h1 : ∀ fe ∈ fes, ((kind fe.name).effect position compile order).clone.fit y
        (some { x with cols := fe.cols }) cfg.effectScale = .ok fe.effect ∧
        ∀ a ∈ fe.cols, a ∈ x.cols := fun fe hfe => by
      obtain ⟨e, he, hn, hm, hfit⟩ := exists_of_forall₂ hf hfe
      rw [hU.effects e he, ← hn] at hfit
      exact ⟨hfit, fun a ha => (matchColumns_sublist hm).subset ha⟩
    rcases hcase with ⟨-, h⟩ | ⟨eff, -, h2, h⟩
    · rw [h]; exact h1
    · rw [h]
      intro fe hfe
      rcases List.mem_append.1 hfe with h3 | h3
      · exact h1 fe h3
      · cases List.mem_singleton.1 h3
        rw [hU.default] at h2
        exact ⟨h2, fun a ha => (mem_remaining.1 ha).1⟩
  have hskip : ∀ fe ∈ fitted, ∃ b, fe.effect.skip = .ok b := by
    intro fe hfe
    unfold EffectObj.skip shouldSkip
    rw [kind_inputCols _ (hall fe hfe).1 hT.rows]
    exact ⟨_, rfl⟩
  obtain ⟨data, hdata⟩ := transformEffects_runs (x := x) (fh := unique y.times) (l := fitted) (out := [])
    (fun fe hfe => by
      obtain ⟨h1, h2⟩ := hall fe hfe
      refine ⟨hskip fe hfe, { x with cols := fe.cols }, ?_⟩
      obtain ⟨d, hd⟩ := kind_transforms _ h1 hT.dates.flat hT.rows hT.dates.unlabelled
        (x' := { x with cols := fe.cols }) (fun a ha => ha) hT.dates.flat hT.dates.unlabelled (unique y.times)
      exact ⟨d, if_pos h2, hd⟩)
  have hobjs := nonSkipped_ok hskip
  have htd' : (e.embed Attrs.piecewiseEmb AnyData.arrayEmb :
      EffectObj (UsualAttrs τ) _ _ _ _ (AnyData ℝ) _).transform (some x) (unique y.times)
      = .ok (td.inj AnyData.arrayEmb) := by
    rw [embed_transform, htd]
    rfl
  unfold uniFitData
  unfold transformEffects
  simp only [hyT, bind, Except.bind, htf, hx0, hx, htd', hfe, hdata, nonSkipped, hobjs, pure, Except.pure]
  exact ⟨_, rfl⟩

/-- **C98**: every horizon can be forecast if the features have a row for each date and all columns
of the training data, for all values of the parameters that have the right sizes. -/
theorem C98_forecasts (hU : Usual position compile order days suggestLinear p kind cfg)
    (hT : Training cfg y c X x) (hfit : uniFitData cfg y X = .ok m)
    (hw : ∀ n ss mode s, kind n = .seasonal ss mode s → waves ss ≠ []) :
    ∃ s cs, m.trend.st.2 = .piecewise (some s) ∧ s.cps = [cs] ∧
      ∀ (X₁ : Option (Frame String τ ℝ)) (x₁ : Frame String τ ℝ) (fh : List τ),
      cfg.features (X₁.getD (Frame.ofIndex fh)) = .ok x₁ → DatesIn x₁ fh →
      (∀ a ∈ x.cols, a ∈ x₁.cols) → (∀ X', X = some X' → ∀ a ∈ X'.cols, a ∈ x₁.cols) →
      ∃ td data, uniPredictData cfg m X₁ fh = .ok (td, data) ∧
      ∀ θ, UsualSizes kind cs (m.fitted.filter fun fe => (kind fe.name).used fe.cols) θ →
      ∃ st, computeMean (m.trend.cls.call m.trend.st) td data (callsOf m.objs) θ = .ok st ∧
        st.mean.shape = [fh.length, 1] ∧ st.mean.WF := by
  obtain ⟨s, cs, hs, hcs, ⟨y', hpf⟩, hpw⟩ := usual_trend hU hT hfit
  refine ⟨s, cs, hs, hcs, ?_⟩
  intro X₁ x₁ fh hf hd hcx hcX
  obtain ⟨hn', htr'⟩ := usual_names hU hfit
  have hkept := usual_kept hU hT hfit
  have hfits := usual_fits hU hT hfit
  have husual := usual_fitted hU hT hfit
  obtain ⟨yT, x0, x', hyT, htf, hx0, hx, htd0, hfe, hdata0, hobjs, hya⟩ := uniFitData_ok hfit
  obtain ⟨x0', hx0', hx'⟩ := hT.features
  rw [hx0] at hx0'
  cases hx0'
  rw [hx] at hx'
  cases hx'
  rw [hU.trend] at htf
  obtain ⟨e, he, he'⟩ := embed_fit_ok htf
  obtain ⟨hcl, s', hs', -⟩ := piecewise_fit_state he
  have hss : s' = s := by
    rw [he'] at hs
    simp only [EffectObj.embed, hs'] at hs
    cases hs
    rfl
  subst hss
  have hst : e.st.1 = ⟨some (colsOf X), some true⟩ := by
    unfold EffectObj.fit at he
    rw [baseFit_runs (by rintro ⟨h, -⟩; cases h)] at he
    cases hq : (piecewiseClass days suggestLinear piecewisePredict p :
        EffectClass _ _ _ τ ℝ _ _).new.cls.fit (piecewiseClass days suggestLinear piecewisePredict p :
        EffectClass _ _ _ τ ℝ _ _).new.st.2 yT X cfg.unitScale with
    | error er => rw [hq] at he; cases he
    | ok q => rw [hq] at he; cases he; rfl
  have hcolsX : ∀ a ∈ colsOf X, a ∈ x₁.cols := by
    intro a ha
    cases X with
    | none => cases ha
    | some X' =>
      simp only [colsOf] at ha
      split at ha
      · cases ha
      · exact hcX X' rfl a ha
  obtain ⟨td, htd⟩ := trend_data_runs hcl hst hs' (by rw [hcs]; simp) hcolsX fh
  have hcols : ∀ fe ∈ m.fitted, ∀ a ∈ fe.cols, a ∈ x.cols := by
    obtain ⟨fes, hff, -, hcase⟩ := fitEffects_ok.1 hfe
    have h1 : ∀ fe ∈ fes, ∀ a ∈ fe.cols, a ∈ x.cols := fun fe hfe => by
      obtain ⟨e, he, hn, hm, hfit⟩ := exists_of_forall₂ hff hfe
      exact fun a ha => (matchColumns_sublist hm).subset ha
    rcases hcase with ⟨-, h⟩ | ⟨eff, -, h2, h⟩
    · rw [h]; exact h1
    · rw [h]
      intro fe hfe
      rcases List.mem_append.1 hfe with h3 | h3
      · exact h1 fe h3
      · cases List.mem_singleton.1 h3
        exact fun a ha => (mem_remaining.1 ha).1
  have hskip : ∀ fe ∈ m.fitted, ∃ b, fe.effect.skip = .ok b := by
    intro fe hfe
    unfold EffectObj.skip shouldSkip
    rw [kind_inputCols _ (hfits fe hfe) hT.rows]
    exact ⟨_, rfl⟩
  obtain ⟨data, hdata⟩ := transformEffects_runs (x := x₁) (fh := fh) (l := m.fitted) (out := [])
    (fun fe hfe => by
      refine ⟨hskip fe hfe, { x₁ with cols := fe.cols }, ?_⟩
      obtain ⟨d, hd⟩ := kind_transforms _ (hfits fe hfe) hT.dates.flat hT.rows hT.dates.unlabelled
        (x' := { x₁ with cols := fe.cols }) (fun a ha => ha) hd.flat hd.unlabelled fh
      exact ⟨d, if_pos fun a ha => hcx a (hcols fe hfe a ha), hd⟩)
  have htd' : m.trend.transform (some x₁) fh = .ok (td.inj AnyData.arrayEmb) := by
    rw [he', embed_transform, htd]
    rfl
  refine ⟨td.inj AnyData.arrayEmb, data, ?_, ?_⟩
  · unfold uniPredictData transformEffects
    simp only [hf, bind, Except.bind, htd', hdata, pure, Except.pure]
  intro θ hθ
  rw [← hkept] at hθ
  obtain ⟨⟨o, ho⟩, hlδ⟩ := hθ.trend
  have h2 : ∃ t, m.trend.cls.call m.trend.st θ (td.inj AnyData.arrayEmb) [] = .ok t := by
    rw [he', embed_call]
    obtain ⟨cols, mm, hmd, hm⟩ := trend_transform_data (by rw [hcl]; rfl) (by rw [hcl]; rfl) htd
    rw [hcl, hs'] at hm
    rw [hcl, hmd]
    simp only [piecewiseClass, hs', hU.squeeze] at hm ⊢
    unfold piecewiseTransform at hm
    rw [hcs] at hm
    obtain ⟨rr, h, -⟩ := C38_single (n := s'.time.nSeries) (p := []) hm hlδ.symm rfl ho
    exact ⟨rr, h⟩
  obtain ⟨t, h2⟩ := h2
  have htc := hpw θ x₁ fh _ t hθ.trend hd htd' h2
  obtain ⟨hobj, hdat⟩ := transformEffects_get hn' (show transformEffects m.fitted x₁ fh = .ok data from hdata)
    hobjs
  have hcalls : callsOf m.objs
      = (kept m.fitted).map fun fe => (fe.name, fe.effect.cls.call fe.effect.st) := by
    rw [hobj]
    simp [callsOf, Function.comp_def]
  have hsc : ∀ n, θ.scope n "coefs" = θ (n ++ "/coefs") := by
    intro n
    unfold SiteEnv.scope
    rw [String.append_assoc]
    rfl
  have htre : "trend" ∉ (callsOf m.objs).map Prod.fst := by
    rw [hcalls]
    intro h
    obtain ⟨a, ha, hb⟩ : ∃ a ∈ kept m.fitted, a.name = "trend" := by
      simpa [Function.comp_def] using h
    exact htr' (List.mem_map.2 ⟨a, List.mem_of_mem_filter ha, hb⟩)
  obtain ⟨rr, hrun, hsh, hwf⟩ := runMean_succeeds (pr := fun n => (kind n).priors)
    (tp := fun _ _ _ => .ok []) (effects := callsOf m.objs) (data := data) htre rfl h2
    (by rw [htc]; exact columnOf_wf _) (by
      intro e he
      rw [hcalls] at he
      obtain ⟨fe, hk, rfl⟩ := List.mem_map.1 he
      have hmem := List.mem_of_mem_filter hk
      obtain ⟨xc, d, hxc, hd', hdd⟩ := hdat fe hk
      refine ⟨d, hdd, fun p hp => ?_⟩
      have hused : (kind fe.name).used fe.cols = true := by
        refine (husual fe hmem).2.2.1.1 ?_
        simpa using (List.mem_filter.1 hk).2
      have hpos : (kind fe.name).size fe.cols ≠ 0 := by
        cases hkd : kind fe.name with
        | seasonal ss mode sc =>
          simp only [EffectKind.size]
          intro h0
          have h0 := List.length_eq_zero_iff.1 h0
          cases hwv : waves ss with
          | nil => exact hw _ _ _ _ hkd hwv
          | cons a l =>
            rw [hwv] at h0
            have : a.name ∈ unique ((a :: l).map Wave.name) := mem_unique.2 (by simp)
            rw [h0] at this
            cases this
        | linear mode pr =>
          rw [hkd] at hused
          simpa [EffectKind.used, EffectKind.size] using hused
      have hrun := kind_runs _ (hfits fe hmem) hT.dates.flat hT.rows hpos
      rw [htc] at hp ⊢
      exact hrun xc fh d (hd.select hxc) hd' _ p _ (by
        rw [hsc]
        exact hθ.coefs fe hk) (by simp) hp)
  obtain ⟨_, _, hok, -⟩ := runMean_ok htre hrun
  refine ⟨rr.1, hok, ?_, hwf⟩
  rw [hsh, htc]
  simp [columnOf]

end
end PV
