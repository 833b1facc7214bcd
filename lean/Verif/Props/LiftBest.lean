import Verif.Props.LiftWorks
import Verif.Props.UsualExamples

/-!
# C119: forecasters with lift tests have best fits

For a piecewise linear trend with seasonalities and linear effects, tested or not, there are best
parameters for every noise level, so that the comparisons of C119 are about something.
-/

set_option linter.unusedSectionVars false

namespace PV
open Tensor Filter

section
variable {τ : Type} [LinearOrder τ]
variable {position : τ → ℤ} {compile : String → PyM (String → Bool)}
  {order : List String → List String} {days : τ → ℝ}
  {suggest : List ℝ → Tensor ℝ → PyM (List ℝ × List ℝ)}
  {p : PiecewiseParams ℝ τ} {kind : String → EffectKind}
  {cfg : UniConfig (UsualAttrs τ) (Scale ℝ) τ ℝ (AnyData ℝ) ℝ} {y : Frame String τ ℝ} {c : String}
  {X : Option (Frame String τ ℝ)} {x : Frame String τ ℝ}
  {m : UniFit (UsualAttrs τ) (Scale ℝ) τ ℝ (AnyData ℝ) ℝ}

theorem usual_class (hU : Usual position compile order days suggest p kind cfg)
    (hfit : uniFitData cfg y X = .ok m) : ∀ fe ∈ m.fitted,
    fe.effect.cls = ((kind fe.name).effect position compile order).cls := by
  obtain ⟨yT, x0, x', hyT, htf, hx0, hx, htd, hfe, hdata, hobjs, hya⟩ := uniFitData_ok hfit
  obtain ⟨fes, hf, -, hcase⟩ := fitEffects_ok.1 hfe
  have h1 : ∀ fe ∈ fes, fe.effect.cls = ((kind fe.name).effect position compile order).cls := by
    intro fe hfe
    obtain ⟨e, hmem, hfrom⟩ := exists_of_forall₂ hf hfe
    rw [(effectFit_ok hfrom.2.2).1, hfrom.1]
    rw [hU.effects e hmem]
    rfl
  rcases hcase with ⟨-, h⟩ | ⟨eff, -, h2, h⟩
  · rw [h]; exact h1
  · rw [h]
    intro fe hfe
    rcases List.mem_append.1 hfe with h3 | h3
    · exact h1 fe h3
    · rw [List.mem_singleton.1 h3]
      rw [(effectFit_ok h2).1, hU.default]
      rfl

/-- Trend and effects are columns. -/
theorem usual_columnModel (hU : Usual position compile order days suggest p kind cfg)
    (hT : Training cfg y c X x) (hfit : uniFitData cfg y X = .ok m) {s : PiecewiseState ℝ τ} {cs : List ℝ}
    (hs : m.trend.st.2 = .piecewise (some s)) (hcs : s.cps = [cs]) :
    ColumnModel m (unique y.times).length (SingleSites cs) := by
  obtain ⟨s', cs', hs', hcs', -, hpw⟩ := usual_trend hU hT hfit
  rw [hs] at hs'
  cases hs'
  rw [hcs] at hcs'
  cases hcs'
  have hcls := usual_class hU hfit
  obtain ⟨hn', htr'⟩ := usual_names hU hfit
  obtain ⟨yT, x0, x', hyT, htf, hx0, hx, htd0, hfe, hdata0, hobjs, hya⟩ := uniFitData_ok hfit
  obtain ⟨x0', hx0', hx'⟩ := hT.features
  rw [hx0] at hx0'
  cases hx0'
  rw [hx] at hx'
  cases hx'
  have hnd : y.times.Nodup := by
    unfold Frame.times
    exact (List.pairwise_map.2 hT.sorted).imp fun h => h.ne
  rw [unique_of_nodup hnd] at htd0 ⊢
  obtain ⟨hob, -⟩ := transformEffects_get hn' hdata0 hobjs
  constructor
  · intro θ v hθ hv
    rw [hpw θ x y.times _ v hθ hT.dates htd0 hv]
    simp [columnOf]
  · intro q hq d hd θ p tr v hp hs hv
    rw [hob] at hq
    obtain ⟨fe, hk, rfl⟩ := List.mem_map.1 hq
    simp only at hv
    rw [hcls fe (List.mem_of_mem_filter hk)] at hv
    cases hkind : kind fe.name with
    | seasonal ss mode pr =>
      rw [hkind] at hv
      simp only [EffectKind.effect, EffectObj.embed, EffectClass.embed, fourierNew, fourierClass] at hv
      split at hv
      · split at hv
        · exact addMul_column hp hs hv
        · cases hv
      · cases hv
    | linear mode pr =>
      rw [hkind] at hv
      simp only [EffectKind.effect, EffectObj.embed, EffectClass.embed, linearClass] at hv
      split at hv
      · exact addMul_column hp hs hv
      · cases hv

theorem usual_objs (hU : Usual position compile order days suggest p kind cfg)
    (hT : Training cfg y c X x) (hfit : uniFitData cfg y X = .ok m) :
    m.objs.map Prod.fst = (usedEffects kind m).map FittedEffect.name := by
  have hkept := usual_kept hU hT hfit
  obtain ⟨yT, x0, x', hyT, htf, hx0, hx, htd0, hfe, hdata0, hobjs, hya⟩ := uniFitData_ok hfit
  obtain ⟨hob, -⟩ := transformEffects_get (usual_names hU hfit).1 hdata0 hobjs
  rw [hob, hkept, List.map_map]
  rfl

/-- What an effect contributes at a date. -/
noncomputable def usualPart (position : τ → ℤ) (kind : String → EffectKind) (days : τ → ℝ)
    (s : PiecewiseState ℝ τ) (cs : List ℝ) (y x : Frame String τ ℝ)
    (fe : FittedEffect (UsualAttrs τ) (Frame String τ ℝ) (Scale ℝ) τ ℝ (AnyData ℝ) ℝ) (θ : SiteEnv ℝ) (t : τ) : ℝ :=
  combine (kind fe.name).modeOf (usualTrend days s cs θ t)
    (dot ((kind fe.name).features position (firstPosition position y.times) fe.cols t (rowAt x t))
      (θ (fe.name ++ "/coefs")).data)

/-- The recorded contributions. -/
theorem usual_records (hU : Usual position compile order days suggest p kind cfg)
    (hT : Training cfg y c X x) (hfit : uniFitData cfg y X = .ok m) {s : PiecewiseState ℝ τ} {cs : List ℝ}
    (hs : m.trend.st.2 = .piecewise (some s)) (hcs : s.cps = [cs]) {θ : SiteEnv ℝ} (hθ : SingleSites cs θ)
    {sites : PyDict (Tensor ℝ)} (hr : Records m θ sites) : ∀ fe ∈ usedEffects kind m,
    sites.get? fe.name = some (columnOf ((unique y.times).map (usualPart position kind days s cs y x fe θ))) := by
  obtain ⟨s', cs', hs', hcs', -, hpw⟩ := usual_trend hU hT hfit
  rw [hs] at hs'
  cases hs'
  rw [hcs] at hcs'
  cases hcs'
  have hfp := usual_fitted hU hT hfit
  obtain ⟨hn', htr'⟩ := usual_names hU hfit
  have hkept := usual_kept hU hT hfit
  obtain ⟨yT, x0, x', hyT, htf, hx0, hx, htd0, hfe, hdata0, hobjs, hya⟩ := uniFitData_ok hfit
  obtain ⟨x0', hx0', hx'⟩ := hT.features
  rw [hx0] at hx0'
  cases hx0'
  rw [hx] at hx'
  cases hx'
  have hnd : y.times.Nodup := by
    unfold Frame.times
    exact (List.pairwise_map.2 hT.sorted).imp fun h => h.ne
  rw [unique_of_nodup hnd] at htd0 hdata0 ⊢
  obtain ⟨st, hst, rfl⟩ := hr
  obtain ⟨trv, vals, htv, hsites, hlen, hv⟩ := C17_own_data hn' htr' hdata0 hobjs hst
  have htc := hpw θ x y.times _ trv hθ hT.dates htd0 htv
  intro fe hmem
  have hmem' : fe ∈ kept m.fitted := by rw [hkept]; exact hmem
  obtain ⟨k, hk, rfl⟩ := List.mem_iff_getElem.1 hmem'
  have hkv : k < vals.length := by omega
  obtain ⟨xc, d, hxc, htd, hcall⟩ := hv k _ _ (List.getElem?_eq_getElem hk) (List.getElem?_eq_getElem hkv)
  have hval := (hfp _ (List.mem_of_mem_filter hmem')).1 _ xc y.times d _ (piecewiseAt days s cs θ) _ (hT.dates.select hxc) htd
    (by simp [PyDict.get?, htc]) hcall
  rw [rowAt_select hxc] at hval
  have hne : (kept m.fitted)[k].name ≠ "trend" := fun h => htr' (by
    rw [← h]
    exact List.mem_map.2 ⟨_, List.mem_of_mem_filter hmem', rfl⟩)
  rw [hsites]
  have hget : PyDict.get? (((kept m.fitted).map FittedEffect.name).zip vals) (kept m.fitted)[k].name = some vals[k] := by
    refine PyDict.get?_of_mem ?_ ?_
    · unfold PyDict.keys
      rw [List.map_fst_zip (by simp [hlen])]
      exact hn'.sublist (List.filter_sublist.map _)
    · rw [List.mem_iff_getElem]
      exact ⟨k, by simp [hlen, hk], by simp⟩
  have : PyDict.get? (("trend", trv) :: ((kept m.fitted).map FittedEffect.name).zip vals) (kept m.fitted)[k].name
      = some vals[k] := by
    rw [← hget]
    exact if_neg hne.symm
  rw [this, hval]
  congr 2
  refine List.map_congr_left fun t _ => ?_
  rw [kind_value, scope_coefs]
  unfold usualPart
  cases kind (kept m.fitted)[k].name <;> rfl

/-- The log density of the tests of an effect with given values. -/
noncomputable def testSum (tests : String → Option (LiftTest τ)) (scale : ℝ) (dates : List τ) (n : String)
    (f : τ → ℝ) : ℝ :=
  match tests n with
  | none => 0
  | some t => (dates.map fun date => match t.measured date with
    | none => 0
    | some lift => normalLP (f date) t.priorScale (lift / scale)).sum

theorem testLog_sum {tests : String → Option (LiftTest τ)} {scale : ℝ} {dates : List τ} {n : String} {f : τ → ℝ}
    {sites : PyDict (Tensor ℝ)} (h : sites.get? n = some (columnOf (dates.map f))) :
    testLog tests scale dates sites n = testSum tests scale dates n f := by
  unfold testLog testSum testsOf
  cases tests n with
  | none => rfl
  | some t =>
    rw [h]
    simp only [LiftTest.pairs, columnOf]
    clear h
    induction dates with
    | nil => rfl
    | cons a l ih =>
      simp only [List.map_cons, List.zip_cons_cons, List.filterMap_cons, List.sum_cons]
      cases hm : t.measured a with
      | none => simpa [hm] using ih
      | some lift => simpa [hm] using ih

theorem continuous_testSum {Z : Type} [TopologicalSpace Z] {tests : String → Option (LiftTest τ)} {scale : ℝ}
    {dates : List τ} {n : String} {f : Z → τ → ℝ} (hf : ∀ t, Continuous fun z => f z t) :
    Continuous fun z => testSum tests scale dates n (f z) := by
  unfold testSum
  cases tests n with
  | none => exact continuous_const
  | some t =>
    refine continuous_map_sum _ fun date _ => ?_
    cases t.measured date with
    | none => exact continuous_const
    | some lift => exact (continuous_normalLP_loc _ _).comp (hf date)

theorem testSum_le (tests : String → Option (LiftTest τ)) (scale : ℝ) (dates : List τ) (n : String) :
    ∃ C, ∀ f, testSum tests scale dates n f ≤ C := by
  unfold testSum
  cases tests n with
  | none => exact ⟨0, fun _ => le_refl _⟩
  | some t =>
    refine ⟨(dates.map fun date => match t.measured date with
      | none => 0
      | some _ => -Real.log t.priorScale - Real.log (2 * Real.pi) / 2).sum, fun f =>
      List.sum_le_sum fun date _ => ?_⟩
    cases t.measured date with
    | none => exact le_refl _
    | some lift => exact normalLP_le _ _ _

/-- What an effect contributes, in terms of the coordinates. -/
noncomputable def coordPart (position : τ → ℤ) (kind : String → EffectKind) (days : τ → ℝ)
    (s : PiecewiseState ℝ τ) (cs : List ℝ) (y x : Frame String τ ℝ)
    {l : List (FittedEffect (UsualAttrs τ) (Frame String τ ℝ) (Scale ℝ) τ ℝ (AnyData ℝ) ℝ)}
    (k : Fin l.length) (v : Coords (usedSize kind) cs l → ℝ) (t : τ) : ℝ :=
  combine (kind l[k].name).modeOf (coordTrend days s cs v t)
    (dot ((kind l[k].name).features position (firstPosition position y.times) l[k].cols t (rowAt x t))
      (coordsCoefs v k))

theorem continuous_coordPart {s : PiecewiseState ℝ τ} {cs : List ℝ}
    {l : List (FittedEffect (UsualAttrs τ) (Frame String τ ℝ) (Scale ℝ) τ ℝ (AnyData ℝ) ℝ)}
    (k : Fin l.length) (t : τ) : Continuous fun v : Coords (usedSize kind) cs l → ℝ =>
    coordPart position kind days s cs y x k v t := by
  have h1 := continuous_coordTrend (days := days) (s := s) (cs := cs) (l := l) (size := usedSize kind) t
  have h2 : Continuous fun v : Coords (usedSize kind) cs l → ℝ =>
      dot ((kind l[k].name).features position (firstPosition position y.times) l[k].cols t (rowAt x t))
        (coordsCoefs v k) :=
    continuous_zipWith_ofFn (fun u => continuous_const.mul continuous_id) _
      fun i => continuous_apply _
  unfold coordPart
  simp only [combine]
  split
  · exact h2
  · exact h1.mul h2

theorem coordPart_eq {s : PiecewiseState ℝ τ} {cs : List ℝ}
    {l : List (FittedEffect (UsualAttrs τ) (Frame String τ ℝ) (Scale ℝ) τ ℝ (AnyData ℝ) ℝ)} {θ : SiteEnv ℝ}
    {v : Coords (usedSize kind) cs l → ℝ} (ho : (θ "offset").data = [v (.inl ())])
    (hδ : (θ "changepoint_coefficients").data = coordsCps v)
    (hβ : ∀ k : Fin l.length, (θ (l[k].name ++ "/coefs")).data = coordsCoefs v k) (k : Fin l.length) :
    usualPart position kind days s cs y x l[k] θ = coordPart position kind days s cs y x k v := by
  funext t
  simp only [usualPart, coordPart, usualTrend, coordTrend, ho, hδ, hβ, List.headD_cons]

/-- **C119**: a forecaster with a piecewise linear trend, seasonalities and linear effects, of which any may
be tested, has a best fit for every noise level, if the log densities of the priors are continuous and tend to
`-∞` (the default does, and that of a seasonality). -/
theorem C119_exists {p : PiecewiseParams ℝ τ} (hU : Usual position compile order days suggestLinear p kind cfg)
    (hp : Starts p) (hT : Training cfg y c X x) {b : ℝ} (hb : p.priorScale = .scalar b) (hb0 : 0 < b)
    (hw : ∀ n ss mode s, kind n = .seasonal ss mode s → waves ss ≠ [])
    (hpc : ∀ n, Continuous (kind n).prior) (hpt : ∀ n, Tendsto (kind n).prior (cocompact ℝ) atBot)
    (hfit : uniFitData cfg y X = .ok m) :
    ∃ s cs, m.trend.st.2 = .piecewise (some s) ∧ s.cps = [cs] ∧
    ColumnModel m (unique y.times).length (SingleSites cs) ∧
    ∀ (tests : String → Option (LiftTest τ)) (sc : ℝ)
      (m' : UniFit (UsualAttrs τ ⊕ LiftAttrs (UsualAttrs τ) ℝ) (Scale ℝ) τ ℝ (AnyData ℝ ⊕ LiftData (AnyData ℝ) ℝ) ℝ),
      Testable tests cfg sc → uniFitData (withTests tests cfg) y X = .ok m' → TestedColumns tests m' →
      ∀ (ns scale os σ : ℝ), os ≠ 0 → ∃ θ L,
        IsBest (testedDensity tests cfg (usualTrendPriors os m.trend.st.2) (fun n => (kind n).priors) .normal
            ns scale m')
          (fun θ => UsualSizes kind cs (usedEffects kind m) θ ∧ (θ "noise_scale").data = [σ]) θ L := by
  obtain ⟨s, cs, hs, hcs, hC⟩ := usual_coords hU hT hfit hb hw
  have hcol := usual_columnModel hU hT hfit hs hcs
  refine ⟨s, cs, hs, hcs, hcol, fun tests sc m' hA hfit' htc ns scale os σ hos => ?_⟩
  obtain ⟨h1, h2⟩ := usual_offset hU hp hT hfit hs
  obtain ⟨μ, -, hsz, hval, hall⟩ := hC h1 h2
  obtain ⟨m1, hm1, hterms⟩ := C119_terms hA hfit' htc
  rw [hfit] at hm1
  cases hm1
  have hterms := hterms (SingleSites cs) hcol (usualTrendPriors os m.trend.st.2) (fun n => (kind n).priors) .normal ns scale
  have hnames : m.objs.map Prod.fst = (usedEffects kind m).map FittedEffect.name := by
    exact usual_objs hU hT hfit
  have hn' : ((usedEffects kind m).map FittedEffect.name).Nodup :=
    (usual_names hU hfit).1.sublist (List.filter_sublist.map _)
  set l := usedEffects kind m with hl
  have key : ∀ (θ : SiteEnv ℝ) (v : Coords (usedSize kind) cs l → ℝ) (sites : PyDict (Tensor ℝ)), SingleSites cs θ →
      (θ "offset").data = [v (.inl ())] → (θ "changepoint_coefficients").data = coordsCps v →
      (∀ k : Fin l.length, (θ (l[k].name ++ "/coefs")).data = coordsCoefs v k) → Records m θ sites →
      (m.objs.map fun q => testLog tests sc (unique y.times) sites q.1).sum
        = ∑ k : Fin l.length, testSum tests sc (unique y.times) l[k].name
            (coordPart position kind days s cs y x k v) := by
    intro θ v sites hθ ho hδ hβ hr
    have e1 : (m.objs.map fun q => testLog tests sc (unique y.times) sites q.1)
        = l.map fun fe => testLog tests sc (unique y.times) sites fe.name := by
      have := congrArg (List.map fun n => testLog tests sc (unique y.times) sites n) hnames
      simpa [Function.comp_def] using this
    rw [e1, ← Fin.sum_univ_fun_getElem]
    refine Finset.sum_congr rfl fun k _ => ?_
    have := usual_records hU hT hfit hs hcs hθ hr l[k] (List.getElem_mem _)
    rw [coordPart_eq ho hδ hβ] at this
    exact testLog_sum this
  choose C hCt using fun k : Fin l.length => testSum_le tests sc (unique y.times) l[k].name
  obtain ⟨v, hv⟩ := exists_best (f := coordPrior kind μ os b cs l)
    (R := fun v => (halfNormalLP ns σ + (y.rows.map fun row => normalLP (coordMean position
      (firstPosition position y.times) kind days x s cs v row.time) σ (row.val c)).sum)
      + ∑ k : Fin l.length, testSum tests sc (unique y.times) l[k].name
          (coordPart position kind days s cs y x k v))
    (C := (halfNormalLP ns σ + (y.rows.map fun _ => -Real.log σ - Real.log (2 * Real.pi) / 2).sum) + ∑ k, C k)
    (continuous_coordPrior hpc) (tendsto_coordPrior hos hb0 hpt)
    ((continuous_const.add (continuous_map_sum _ fun row _ =>
      (continuous_normalLP_loc _ _).comp (continuous_coordMean _))).add
      (continuous_finset_sum _ fun k _ => continuous_testSum fun t => continuous_coordPart k t))
    (fun v => add_le_add (add_le_add_right (List.sum_le_sum fun row _ => normalLP_le _ _ _) _)
      (Finset.sum_le_sum fun k _ => hCt k _))
  have hden : ∀ (v : Coords (usedSize kind) cs l → ℝ) (L' : ℝ) (θ : SiteEnv ℝ), UsualSizes kind cs l θ →
      (θ "offset").data = [v (.inl ())] → (θ "changepoint_coefficients").data = coordsCps v →
      (∀ k : Fin l.length, (θ (l[k].name ++ "/coefs")).data = coordsCoefs v k) →
      usualDensity kind .normal ns scale os m θ
        = usualDensity kind .normal ns scale os m (sitesOf FittedEffect.name σ v) →
      testedDensity tests cfg (usualTrendPriors os m.trend.st.2) (fun n => (kind n).priors) .normal ns scale m' θ
        = .ok L' →
      L' = ∑ i, coordPrior kind μ os b cs l i (v i) + ((halfNormalLP ns σ
          + (y.rows.map fun row => normalLP (coordMean position (firstPosition position y.times) kind
                days x s cs v row.time) σ (row.val c)).sum)
          + ∑ k : Fin l.length, testSum tests sc (unique y.times) l[k].name
              (coordPart position kind days s cs y x k v)) := by
    intro v L' θ hz ho hδ hβ he hL'
    obtain ⟨L, sites, hL, hr, e⟩ := (hterms θ hz.trend).1 L' hL'
    rw [key θ v sites hz.trend ho hδ hβ hr] at e
    have : usualDensity kind .normal ns scale os m θ = .ok L := hL
    rw [he, hval] at this
    rw [e, ← Except.ok.inj this]
    ring
  obtain ⟨L, hL⟩ := (hterms _ (hsz v σ).trend).2 _ (hval ns scale os σ v)
  refine ⟨sitesOf FittedEffect.name σ v, L, ⟨hsz v σ, rfl⟩, hL, fun θ' L' hz hL' => ?_⟩
  rw [hden v L _ (hsz v σ) rfl rfl (sitesOf_coefs hn' σ v) rfl hL,
    hden (coordsOf FittedEffect.name θ') L' θ' hz.1 (by
      obtain ⟨o, ho⟩ := hz.1.trend.1
      simp [coordsOf, ho]) (ofFn_getD hz.1.trend.2 0).symm
      (fun k => (ofFn_getD (hz.1.coefs _ (List.getElem_mem _)) 0).symm) (hall ns scale os σ θ' hz.1 hz.2) hL']
  exact hv _

/-- **C119**: such a forecaster can be fitted with every collection of lift tests (flat tables with one column
and distinct dates) of effects that have columns, and has a best fit for every noise level. -/
theorem C119_usual {p : PiecewiseParams ℝ τ} (hU : Usual position compile order days suggestLinear p kind cfg)
    (hV : ValidParams p kind cfg) (hmono : StrictMono days) (hT : Training cfg y c X x)
    (h2 : 2 ≤ y.rows.length) (hX : ∀ X', X = some X' → ∀ a ∈ X'.cols, a ∈ x.cols)
    (hw : ∀ n ss mode s, kind n = .seasonal ss mode s → waves ss ≠ []) {b : ℝ}
    (hb : p.priorScale = .scalar b) (hb0 : 0 < b)
    (hpc : ∀ n, Continuous (kind n).prior) (hpt : ∀ n, Tendsto (kind n).prior (cocompact ℝ) atBot) {sc : ℝ}
    (hsc : cfg.effectScale = .float sc) :
    ∃ m s cs, uniFitData cfg y X = .ok m ∧ m.trend.st.2 = .piecewise (some s) ∧ s.cps = [cs] ∧
    ColumnModel m (unique y.times).length (SingleSites cs) ∧
    ∀ tests : String → Option (LiftTest τ), tests "exogenous_variables_effect" = none →
      (∀ n t, tests n = some t → t.table.nlevels = 1 ∧ (∃ a, t.table.cols = [a]) ∧ t.table.times.Nodup) →
      (∀ e ∈ cfg.effects, tests e.name ≠ none → matchColumns cfg.compile x.cols e.regex ≠ .ok []) →
      Testable tests cfg sc ∧ ∃ m', uniFitData (withTests tests cfg) y X = .ok m' ∧ TestedColumns tests m' ∧
      ∀ (ns scale os σ : ℝ), os ≠ 0 → ∃ θ L,
        IsBest (testedDensity tests cfg (usualTrendPriors os m.trend.st.2) (fun n => (kind n).priors) .normal
            ns scale m')
          (fun θ => UsualSizes kind cs (usedEffects kind m) θ ∧ (θ "noise_scale").data = [σ]) θ L := by
  obtain ⟨m, hm⟩ := C98_fits hU hV hmono hT h2 hX
  obtain ⟨s, cs, hs, hcs, hcol, hE⟩ := C119_exists hU hV.plain hT hb hb0 hw hpc hpt hm
  refine ⟨m, s, cs, hm, hs, hcs, hcol, fun tests hd htab hcols => ?_⟩
  have hA : Testable tests cfg sc := by
    refine ⟨hsc, fun n t h => ⟨(htab n t h).1, (htab n t h).2.1⟩, hd, hU.nodup, hU.reserved, hU.notTrend, ?_⟩
    intro e he _
    rw [hU.effects e he]
    cases kind e.name <;> rfl
  obtain ⟨yT, x0, x', hyT, htf, hx0, hx, htd0, hfe, hdata0, hobjs, hya⟩ := uniFitData_ok hm
  obtain ⟨x0', hx0', hx'⟩ := hT.features
  rw [hx0] at hx0'
  cases hx0'
  rw [hx] at hx'
  cases hx'
  obtain ⟨m', hm', htc⟩ := uniFitData_add_tests (tests := tests) hsc hd hU.nodup hU.reserved hU.notTrend hA.filter
    (fun n t h => ⟨(htab n t h).2.2, (htab n t h).1⟩) (X := X) (y := y) (by
      intro z hz
      rw [hx0] at hz
      cases hz
      have : x.nlevels = x0.nlevels := by
        unfold Frame.locTimes at hx
        split at hx
        · cases hx; rfl
        · cases hx
      rw [← this, hT.dates.flat]) hm (by
      intro fe hf ht h
      obtain ⟨fes, hff, -, hcase⟩ := fitEffects_ok.1 hfe
      have key : ∀ fe ∈ fes, tests fe.name ≠ none → fe.effect.st.1.inputCols ≠ some [] := by
        intro fe hf ht h0
        obtain ⟨e, he, hne, hmc, hfit⟩ := exists_of_forall₂ hff hf
        refine hcols e he (hne ▸ ht) ?_
        rw [hmc]
        rw [(effectFit_ok hfit).2.2] at h0
        have h0 : (if ({ x with cols := fe.cols } : Frame String τ ℝ).isEmpty = true then [] else fe.cols) = [] :=
          Option.some.inj h0
        split at h0
        · rename_i hem
          rw [Frame.isEmpty, Bool.or_eq_true, List.isEmpty_iff, List.isEmpty_iff] at hem
          rcases hem with hem | hem
          · rw [show fe.cols = [] from hem]
          · obtain ⟨r, hr⟩ := List.exists_mem_of_ne_nil _ hT.some
            obtain ⟨r', hr', -⟩ := hT.dates.covers r.time (List.mem_map.2 ⟨r, hr, rfl⟩)
            rw [show x.rows = [] from hem] at hr'
            cases hr'
        · rw [h0]
      rcases hcase with ⟨-, hF⟩ | ⟨eff, -, -, hF⟩
      · rw [hF] at hf
        exact key fe hf ht h
      · rw [hF] at hf
        rcases List.mem_append.1 hf with hf | hf
        · exact key fe hf ht h
        · cases List.mem_singleton.1 hf
          exact ht hd)
  exact ⟨hA, m', hm', htc, hE tests sc m' hA hm' htc⟩

end

/-! Example: a weekly seasonality, and a tested linear effect of the column `a`. -/

noncomputable section

def exCfg119 : UniConfig (UsualAttrs ℤ) (Scale ℝ) ℤ ℝ (AnyData ℝ) ℝ :=
  { exCfg95 with
    compile := fun _ => .ok fun n => decide (n = "a")
    effects := [⟨"weekly", exEffect95 "weekly", none⟩, ⟨"ads", exEffect95 "ads", some "a"⟩] }

theorem exUsual119 : Usual id someCompile id (fun n : ℤ => (n : ℝ)) suggestLinear exP85 exKind95 exCfg119 where
  trend := rfl
  squeeze := rfl
  interval := ⟨1, rfl⟩
  range := ⟨1, rfl⟩
  effects := by
    intro e he
    fin_cases he <;> rfl
  default := rfl
  nodup := by simp [exCfg119]
  reserved := by simp [exCfg119]
  notTrend := by simp [exCfg119]

theorem exValid119 : ValidParams exP85 exKind95 exCfg119 :=
  ⟨exValid98.interval, exValid98.range, exValid98.plain, exValid98.seasons, fun _ _ _ _ => ⟨_, rfl⟩⟩

theorem exTraining119 : Training exCfg119 exY85 "y" (some exX97) exX97 :=
  ⟨exTraining97.flat, exTraining97.column, exTraining97.sorted, exTraining97.some, exTraining97.features,
    exTraining97.dates⟩

theorem exTables119 (s : ℝ) (n : String) (t : LiftTest ℤ) (h : retest exTests119 "ads" s n = some t) :
    t.table.nlevels = 1 ∧ (∃ a, t.table.cols = [a]) ∧ t.table.times.Nodup := by
  have : t = { exTest119 with priorScale := s } := by
    unfold retest exTests119 at h
    split at h
    · simpa using h.symm
    · cases h
  rw [this]
  exact ⟨rfl, ⟨_, rfl⟩, by simp [exTest119, Frame.times]⟩

/-- With tests of standard deviation 1/10 the best fit is at least as close to the tests as with tests of
standard deviation 1. -/
example : ∃ m ms ms' θ θ' L L' sites sites', ∃ cs : List ℝ,
    uniFitData exCfg119 exY85 (some exX97) = .ok m ∧
    uniFitData (withTests (retest exTests119 "ads" (1 / 10)) exCfg119) exY85 (some exX97) = .ok ms ∧
    uniFitData (withTests (retest exTests119 "ads" 1) exCfg119) exY85 (some exX97) = .ok ms' ∧
    IsBest (testedDensity (retest exTests119 "ads" (1 / 10)) exCfg119 (usualTrendPriors (1 / 10) m.trend.st.2)
        (fun n => (exKind95 n).priors) .normal (1 / 2) 1 ms)
      (fun θ => UsualSizes exKind95 cs (usedEffects exKind95 m) θ ∧ (θ "noise_scale").data = [1]) θ L ∧
    IsBest (testedDensity (retest exTests119 "ads" 1) exCfg119 (usualTrendPriors (1 / 10) m.trend.st.2)
        (fun n => (exKind95 n).priors) .normal (1 / 2) 1 ms')
      (fun θ => UsualSizes exKind95 cs (usedEffects exKind95 m) θ ∧ (θ "noise_scale").data = [1]) θ' L' ∧
    Records m θ sites ∧ Records m θ' sites' ∧
    mismatch exTests119 1 (unique exY85.times) sites "ads" ≤ mismatch exTests119 1 (unique exY85.times) sites' "ads" := by
  obtain ⟨m, s, cs, hm, hs, hcs, hC, hE⟩ := C119_usual exUsual119 exValid119 (fun _ _ h => Int.cast_lt.2 h)
    exTraining119 (by simp [exY85]) (by rintro _ ⟨⟩ a ha; exact ha) exWaves98 rfl (by norm_num) exContinuous98
    exTendsto98 rfl
  have hcols : ∀ (tests : String → Option (LiftTest ℤ)), tests "weekly" = none → ∀ e ∈ exCfg119.effects,
      tests e.name ≠ none → matchColumns exCfg119.compile exX97.cols e.regex ≠ .ok [] := by
    intro tests hw e he ht h
    fin_cases he
    · exact ht hw
    · have := congrArg Except.toOption h
      simp [matchColumns, exCfg119, exX97, Except.toOption, Bind.bind, Except.bind, pure, Except.pure] at this
  obtain ⟨hA, ms, hms, hcms, hB⟩ := hE (retest exTests119 "ads" (1 / 10)) (by simp [retest, exTests119])
    (exTables119 _) (hcols _ (by simp [retest, exTests119]))
  obtain ⟨hA', ms', hms', hcms', hB'⟩ := hE (retest exTests119 "ads" 1) (by simp [retest, exTests119])
    (exTables119 _) (hcols _ (by simp [retest, exTests119]))
  obtain ⟨θ, L, hθ⟩ := hB (1 / 2) 1 (1 / 10) 1 (by norm_num)
  obtain ⟨θ', L', hθ'⟩ := hB' (1 / 2) 1 (1 / 10) 1 (by norm_num)
  have hr : ∃ sites, Records m θ sites := by
    obtain ⟨ma, hma, ha⟩ := C119_terms hA hms hcms
    rw [hm] at hma
    cases hma
    obtain ⟨_, sites, -, h, -⟩ := (ha _ hC _ _ .normal (1 / 2) 1 θ hθ.1.1.trend).1 L hθ.2.1
    exact ⟨sites, h⟩
  have hr' : ∃ sites, Records m θ' sites := by
    obtain ⟨ma, hma, ha⟩ := C119_terms hA' hms' hcms'
    rw [hm] at hma
    cases hma
    obtain ⟨_, sites, -, h, -⟩ := (ha _ hC _ _ .normal (1 / 2) 1 θ' hθ'.1.1.trend).1 L' hθ'.2.1
    exact ⟨sites, h⟩
  obtain ⟨sites, hr⟩ := hr
  obtain ⟨sites', hr'⟩ := hr'
  have hT : Testable exTests119 exCfg119 1 := by
    have : retest exTests119 "ads" (1 / 10) = exTests119 := by
      funext n
      unfold retest exTests119
      split <;> rfl
    rw [← this]
    exact hA
  have hn : "ads" ∈ m.objs.map Prod.fst := by
    rw [usual_objs exUsual119 exTraining119 hm]
    obtain ⟨yT, x0, x', -, -, hx0, hx, -, hfe, -⟩ := uniFitData_ok hm
    obtain ⟨x1, h1, h2⟩ := exTraining119.features
    rw [hx0] at h1
    cases h1
    rw [hx] at h2
    cases h2
    obtain ⟨fes, hf, -, hcase⟩ := fitEffects_ok.1 hfe
    obtain ⟨f1, f2, rfl, hn, hc⟩ : ∃ f1 f2, fes = [f1, f2] ∧ f2.name = "ads" ∧ f2.cols = ["a"] := by
      cases hf with
      | cons h hr =>
        cases hr with
        | cons h' hr =>
          cases hr
          refine ⟨_, _, rfl, h'.1, ?_⟩
          have := congrArg Except.toOption h'.2.1
          simpa [matchColumns, exCfg119, exX97, Except.toOption, Bind.bind, Except.bind, pure, Except.pure]
            using this.symm
    refine List.mem_map.2 ⟨f2, List.mem_filter.2 ⟨?_, by rw [hn, hc]; rfl⟩, hn⟩
    rcases hcase with ⟨-, h⟩ | ⟨eff, -, -, h⟩ <;> rw [h] <;> simp
  exact ⟨m, ms, ms', θ, θ', L, L', sites, sites', cs, hm, hms, hms', hθ, hθ', hr, hr',
    (C119_precision hT hm hC hn (by simp [exTests119]; rfl) (by norm_num) (by norm_num) hms hcms hms' hcms'
      (fun θ h => h.1.trend) hθ hθ' hr hr').1⟩

end
end PV
