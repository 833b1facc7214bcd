import Verif.Props.LiftWorks

/-!
# C139: lift tests around an effect that matches no column

An effect without matching columns is left out (C18), but the wrapper of lift tests never is: a wrapped log or
Hill effect without columns makes the forecaster unfittable. A wrapped linear effect is not covered: it would
draw its coefficients in a `numpyro.plate` of size 0 (`effects/linear.py` 67), which the model has no rule for.
-/

set_option linter.unusedSectionVars false

namespace PV
open Tensor

section
variable {S τ : Type} [LinearOrder τ]

/-- The effect called `n` is linear, log or Hill and has lift tests, and no column matched it in the fit `m'`. -/
structure Unmatched (tests : String → Option (LiftTest τ)) (cfg : UniConfig S (Scale ℝ) τ ℝ (Tensor ℝ) ℝ)
    (m' : UniFit (S ⊕ LiftAttrs S ℝ) (Scale ℝ) τ ℝ (Tensor ℝ ⊕ LiftData (Tensor ℝ) ℝ) ℝ) (n : String) (t : LiftTest τ)
    (kind : Curve) (mode : String) : Prop where
  listed : ∃ e ∈ cfg.effects, e.name = n ∧ e.effect.cls = kind.cls mode
  tested : tests n = some t
  unmatched : ∃ fe ∈ m'.fitted, fe.name = n ∧ fe.cols = []

/-- The wrapped effect gets a table without columns. -/
theorem lift_no_columns {Y K V D : Type} [Field K] {l l' : Lift S Y τ V D K} {y : Y} {x xc : Frame String τ V} {sc : K}
    {fh : List τ} {d : LiftData D K} (hfit : l.fit y (some x) sc = .ok l') (hx : x.cols = [])
    (hd : l'.transform (some xc) fh = .ok d) :
    ∃ z : Frame String τ V, z.cols = [] ∧ z.rows = (xc.filterTimes fh).rows ∧ l'.inner.cls.transform l'.inner.st.2 z fh = .ok d.inner := by
  obtain ⟨hb, hfi, hts, hin, -, -⟩ := lift_fit_cols hfit
  have hst := (effectFit_ok hin).2.2
  have hcols : l'.inner.st.1.inputCols = some [] := by
    rw [hst, hx]
    simp
  unfold Lift.transform at hd
  rw [hfi, hcols] at hd
  simp only [bind, Except.bind] at hd
  split at hd
  · cases hd
  rename_i z hz
  unfold Frame.select at hz
  rw [if_pos (by simp)] at hz
  refine ⟨z, by cases hz; rfl, by cases hz; rfl, ?_⟩
  unfold Lift.hookTransform at hd
  simp only [bind, Except.bind] at hd
  split at hd
  · cases hd
  rename_i dd hdd
  rw [hdd]
  split at hd
  · cases hd
  split at hd
  · cases hd
  rw [hts] at hd
  cases hd
  rfl

/-- A table without columns is an array without entries. -/
theorem array_no_columns {z : Frame String τ ℝ} (hz : z.cols = []) {a : Tensor ℝ} (h : z.seriesToTensorOrArray = .ok a) :
    a = ⟨[z.rows.length, 0], []⟩ := by
  unfold Frame.seriesToTensorOrArray at h
  split at h
  · cases h
    simp [Frame.flatVals, hz]
  · unfold Frame.seriesToTensor at h
    rw [if_pos hz] at h
    cases h

variable {tests : String → Option (LiftTest τ)} {cfg : UniConfig S (Scale ℝ) τ ℝ (Tensor ℝ) ℝ} {sc : ℝ}
  {y : Frame String τ ℝ} {X : Option (Frame String τ ℝ)}
  {m' : UniFit (S ⊕ LiftAttrs S ℝ) (Scale ℝ) τ ℝ (Tensor ℝ ⊕ LiftData (Tensor ℝ) ℝ) ℝ}
  {n : String} {t : LiftTest τ} {kind : Curve} {mode : String}

/-- The wrapper takes part in the model, with data without entries. -/
theorem unmatched_object (hA : Testable tests cfg sc) (hfit : uniFitData (withTests tests cfg) y X = .ok m')
    (hU : Unmatched tests cfg m' n t kind mode) :
    (m'.fitted.map FittedEffect.name).Nodup ∧ "trend" ∉ m'.fitted.map FittedEffect.name ∧
    ∃ fe' ∈ kept m'.fitted, fe'.name = n ∧ m'.objs.get? n = some fe'.effect ∧
      ∃ e l' x xc x0 x1 dd k, cfg.fitFeatures (X.getD (Frame.ofIndex y.times)) = .ok x0 ∧ x0.locTimes y.times = .ok x1 ∧
        k = (x1.filterTimes (unique y.times)).rows.length ∧ e ∈ cfg.effects ∧ e.name = n ∧ fe'.effect = l'.obj.ofFloat.embed liftEmb liftEmb ∧
        (t.lift e.effect.clone.onFloat).fit y (some x) sc = .ok l' ∧
        l'.transform (some xc) (unique y.times) = .ok dd ∧ dd.inner = ⟨[k, 0], []⟩ ∧
        m'.data.get? n = some (.data (.inr dd)) ∧
        l'.inner.cls.call l'.inner.st = AddMul.call ⟨mode, kind.raw⟩ := by
  obtain ⟨yT, x0, x, hyT, htf, hx0, hx, htd, hfe, hdata, hobjs, hya⟩ := uniFitData_ok hfit
  have hnames : (withTests tests cfg).effects.map EffectSpec.name = cfg.effects.map EffectSpec.name := by
    simp [withTests, Function.comp_def]
  obtain ⟨hn', htr'⟩ := C17_names (by rw [hnames]; exact hA.nodup) (by rw [hnames]; exact hA.reserved)
    (by rw [hnames]; exact hA.notTrend) hfe
  refine ⟨hn', htr', ?_⟩
  rw [show (withTests tests cfg).effectScale = .float sc from hA.scale] at hfe
  obtain ⟨F, hF, hrel⟩ := fitEffects_tests hA.default hfe
  obtain ⟨hob', hget'⟩ := transformEffects_get hn' hdata hobjs
  obtain ⟨fe', hfe', rfl, hnil⟩ := hU.unmatched
  obtain ⟨fe, hfeF, h1, h2, ⟨ht, h3⟩ | ⟨t', e0, l', ht, he0, hne0, hl', h3, h4⟩⟩ := exists_of_forall₂ hrel hfe'
  · rw [← h1, hU.tested] at ht
    cases ht
  rw [← h1, hU.tested] at ht
  cases ht
  obtain ⟨e, he, hen, hec⟩ := hU.listed
  have hee : e = e0 := by
    have h5 := find?_of_names EffectSpec.name hA.nodup he
    have h6 := find?_of_names EffectSpec.name hA.nodup he0
    rw [hen, h1, ← hne0, h6] at h5
    exact (Option.some.inj h5).symm
  subst hee
  obtain ⟨hb, hfi, hts, hin, -, -⟩ := lift_fit_cols hl'
  obtain ⟨hcls, -, hst⟩ := effectFit_ok hin
  have hsk : fe'.effect.skip = .ok false := by
    rw [h4]
    show shouldSkip liftTags l'.base = _
    rw [hb, hst]
    simp [shouldSkip, liftTags]
  have hk : fe' ∈ kept m'.fitted := List.mem_filter.2 ⟨hfe', by simp [hsk]⟩
  obtain ⟨xc, d', hxc, hd', hg⟩ := hget' fe' hk
  rw [h4] at hd'
  obtain ⟨dl, hd0, rfl⟩ := embed_transform_ok hd'
  rw [show l'.obj.ofFloat.transform (some xc) (unique y.times) = l'.obj.transform (some xc) (unique y.times) from rfl,
    lift_obj_transform hb (by rw [hst])] at hd0
  cases hdd : l'.transform (some xc) (unique y.times) with
  | error err => rw [hdd] at hd0; cases hd0
  | ok dd =>
    rw [hdd] at hd0
    cases hd0
    obtain ⟨z, hz, hzr, hzt⟩ := lift_no_columns hl' (by rw [← h2]; exact hnil) hdd
    have hclsE : l'.inner.cls.transform l'.inner.st.2 z (unique y.times) = z.seriesToTensorOrArray := by
      rw [hcls]
      show e.effect.cls.transform _ _ _ = _
      rw [hec]
      cases kind <;> rfl
    rw [hclsE] at hzt
    have hkk := array_no_columns hz hzt
    have hxr : xc.rows = x.rows := by
      unfold Frame.select at hxc
      split at hxc
      · cases hxc; rfl
      · cases hxc
    refine ⟨fe', hk, rfl, ?_, e, l', _, xc, x0, x, dd, _, hx0, hx, by rw [hzr]; simp [Frame.filterTimes, hxr], he, hen, h4, hl', hdd, hkk, hg, ?_⟩
    · rw [hob']
      refine PyDict.get?_of_mem ?_ (List.mem_map.2 ⟨fe', hk, rfl⟩)
      unfold PyDict.keys
      rw [List.map_map]
      exact hn'.sublist (List.filter_sublist.map _)
    · rw [hcls]
      show e.effect.cls.call _ = _
      rw [hec]
      cases kind <;> rfl

/-- **C139**: with a wrapped log or Hill effect without matching columns the model cannot be evaluated, whatever
the parameters and priors: fitting fails. -/
theorem C139_curve (hA : Testable tests cfg sc) (hfit : uniFitData (withTests tests cfg) y X = .ok m')
    (hU : Unmatched tests cfg m' n t kind mode) (hkind : kind ≠ .linear) {θ : SiteEnv ℝ} {tr : Tensor ℝ} {N : Nat}
    (htr : m'.trend.cls.call m'.trend.st θ m'.trendData [] = .ok tr) (hsh : tr.shape = [N, 1]) (hN : 0 < N) (hwf : tr.WF)
    (tp : Priors (Transformed (Tensor ℝ))) (pr : String → Priors (Transformed (Tensor ℝ))) (lik : Likelihood)
    (ns scale L : ℝ) :
    fitDensity (tp.embed plainEmb) (testPriors tests cfg pr m'.objs) lik ns scale m' θ ≠ .ok L := by
  intro hL
  obtain ⟨hn', htr', fe', hk, rfl, -, e, l', x, xc, x1, x2, dd, k, -, -, -, he, hen, h4, hl', hdd, hin, hg, hcall⟩ := unmatched_object hA hfit hU
  obtain ⟨yT, x0, x', hyT, htf, hx0, hx, htd, hfe, hdata, hobjs, hya⟩ := uniFitData_ok hfit
  obtain ⟨hob, hget'⟩ := transformEffects_get hn' hdata hobjs
  obtain ⟨r', os, hr', -, -⟩ := logJoint_eq_ok.1 hL
  obtain ⟨-, -, hm, -⟩ := runMean_ok (by
    rw [hob]
    intro h
    obtain ⟨a, ha, hb⟩ : ∃ a ∈ kept m'.fitted, a.name = "trend" := by
      simpa [callsOf, Function.comp_def] using h
    exact htr' (List.mem_map.2 ⟨a, List.mem_of_mem_filter ha, hb⟩)) hr'
  obtain ⟨trv, vals, htv, hsites, hlen, hv⟩ := C17_own_data hn' htr' hdata hobjs hm
  rw [htr] at htv
  cases htv
  obtain ⟨i, hi, rfl⟩ := List.getElem_of_mem hk
  obtain ⟨xc', d, hxc, hd', hc⟩ := hv i _ _ (List.getElem?_eq_getElem hi)
    (List.getElem?_eq_getElem (by omega : i < vals.length))
  obtain ⟨xc2, d2, hxc2, hd2, hg2⟩ := hget' _ hk
  rw [hxc] at hxc2
  cases hxc2
  rw [hd'] at hd2
  cases hd2
  rw [hg] at hg2
  cases hg2
  rw [h4, show (Transformed.data (Sum.inr dd) : Transformed (Tensor ℝ ⊕ LiftData (Tensor ℝ) ℝ))
        = Transformed.inj liftEmb (.data dd) from rfl, embed_call] at hc
  change (l'.predict _ dd _).map Prod.fst = _ at hc
  cases hpd : l'.predict (θ.scope (kept m'.fitted)[i].name) dd
      (("trend", tr) :: (((kept m'.fitted).map FittedEffect.name).take i).zip (vals.take i)) with
  | error err => rw [hpd] at hc; cases hc
  | ok r =>
    obtain ⟨v, terms⟩ := r
    have hval := C30_value hpd
    rw [hcall, hin] at hval
    have htl : tr.data.length = N := by simpa [WF, hsh, size] using hwf
    have key : ∀ f : ℝ → ℝ, ∀ raw : EffectCall (Transformed (Tensor ℝ)) ℝ, ∀ θ p, p.get? "trend" = some tr →
        raw θ (.data ⟨[k, 0], []⟩) p = .ok ((⟨[k, 0], []⟩ : Tensor ℝ).map f) →
        AddMul.call ⟨mode, raw⟩ θ (.data ⟨[k, 0], []⟩) p = .error .typeError := by
      intro f raw θ p hp hraw
      rw [addMul_predict_unfold hp hwf hraw, if_neg]
      rw [htl]
      simp [Tensor.map]
      omega
    cases kind with
    | linear => exact hkind rfl
    | log =>
      change AddMul.call ⟨mode, logRaw⟩ _ _ _ = _ at hval
      rw [key _ logRaw _ _ (by simp [PyDict.get?]) rfl] at hval
      cases hval
    | hill =>
      change AddMul.call ⟨mode, hillRaw⟩ _ _ _ = _ at hval
      rw [key _ hillRaw _ _ (by simp [PyDict.get?]) rfl] at hval
      cases hval

/-- **C139**: the tests do not change that the data can be prepared, nor which columns belong to which effect. -/
theorem C139_prepared
    (hsc : cfg.effectScale = .float sc)
    (hd : tests defaultEffectName = none) (hn : (cfg.effects.map EffectSpec.name).Nodup)
    (hres : defaultEffectName ∉ cfg.effects.map EffectSpec.name)
    (hnt : "trend" ∉ cfg.effects.map EffectSpec.name)
    (hcur : ∀ e ∈ cfg.effects, tests e.name ≠ none → ∃ (kind : Curve) (mode : String), e.effect.cls = kind.cls mode)
    (htab : ∀ n t, tests n = some t → t.table.times.Nodup ∧ t.table.nlevels = 1)
    (hflat : ∀ x, cfg.fitFeatures (X.getD (Frame.ofIndex y.times)) = .ok x → x.nlevels = 1)
    {m : UniFit S (Scale ℝ) τ ℝ (Tensor ℝ) ℝ} (hfit : uniFitData cfg y X = .ok m) :
    ∃ m', uniFitData (withTests tests cfg) y X = .ok m' ∧
      m'.fitted.map (fun fe => (fe.name, fe.cols)) = m.fitted.map (fun fe => (fe.name, fe.cols)) ∧
      ∀ θ, m'.trend.cls.call m'.trend.st θ m'.trendData [] = m.trend.cls.call m.trend.st θ m.trendData [] := by
  obtain ⟨yT, x0, x, hyT, htf, hx0, hx, htd, hfe, hdata, hobjs, hya⟩ := uniFitData_ok hfit
  have hxl : x.nlevels = 1 := by
    unfold Frame.locTimes at hx
    split at hx
    · cases hx
      exact hflat x0 hx0
    · cases hx
  obtain ⟨hnF, hntF⟩ := C17_names hn hres hnt hfe
  rw [hsc] at hfe
  obtain ⟨F', hF', hrel⟩ := fitEffects_add_tests hd hxl.le hfe
  have hmem : ∀ fe' ∈ F', ∃ fe ∈ m.fitted, FitRel cfg.effects tests y x sc fe fe' := by
    intro fe' hfe'
    obtain ⟨fe, h1, h2⟩ := exists_of_forall₂ hrel hfe'
    exact ⟨fe, h1, h2⟩
  have hcolsub : ∀ fe ∈ m.fitted, ∀ a ∈ fe.cols, a ∈ x.cols := by
    obtain ⟨fes, hf, -, hcase⟩ := fitEffects_ok.1 hfe
    have h1 : ∀ fe ∈ fes, ∀ a ∈ fe.cols, a ∈ x.cols := by
      intro fe hfe a ha
      obtain ⟨e, -, -, hm, -⟩ := exists_of_forall₂ hf hfe
      unfold matchColumns at hm
      split at hm
      · rw [← Except.ok.inj hm] at ha
        cases ha
      · simp only [bind, Except.bind] at hm
        split at hm
        · cases hm
        · rw [← Except.ok.inj hm] at ha
          exact List.mem_of_mem_filter ha
    rcases hcase with ⟨-, h⟩ | ⟨eff, -, -, h⟩
    · rw [h]
      exact h1
    · rw [h]
      intro fe hfe
      rcases List.mem_append.1 hfe with h2 | h2
      · exact h1 fe h2
      · cases List.mem_singleton.1 h2
        intro a ha
        exact List.mem_of_mem_filter ((List.mem_insertionSort _).1 ha)
  have hsame : F'.map (fun fe => (fe.name, fe.cols)) = m.fitted.map fun fe => (fe.name, fe.cols) := by
    have : ∀ {a b}, List.Forall₂ (FitRel (S := S) (D := Tensor ℝ) cfg.effects tests y x sc) a b →
        b.map (fun fe => (fe.name, fe.cols)) = a.map fun fe => (fe.name, fe.cols) := by
      intro a b hab
      induction hab with
      | nil => rfl
      | cons h _ ih => simp only [List.map_cons, ih, h.1, h.2.1]
    exact this hrel
  have hlift : ∀ {e0 : EffectObj S (Frame String τ ℝ) ℝ τ ℝ (Tensor ℝ) ℝ} {t : LiftTest τ} {x l'}, (t.lift e0).fit y (some x) sc = .ok l' →
      (l'.obj.ofFloat.embed liftEmb liftEmb : EffectObj (S ⊕ LiftAttrs S ℝ) (Frame String τ ℝ) (Scale ℝ) τ ℝ
        (Tensor ℝ ⊕ LiftData (Tensor ℝ) ℝ) ℝ).skip = .ok false := by
    intro e0 t x l' hl'
    obtain ⟨hb, -, -, hin, -, -⟩ := lift_fit_cols hl'
    show shouldSkip liftTags l'.base = _
    rw [hb, (effectFit_ok hin).2.2]
    simp [shouldSkip, liftTags]
  have hskF := skips_of_transform hnF hdata
  have hsk' : ∀ fe' ∈ F', ∃ b, fe'.effect.skip = .ok b := by
    intro fe' hfe'
    obtain ⟨fe, hfeF, -, -, ⟨-, h3⟩ | ⟨t, e0, l', -, -, -, hl', -, h4⟩⟩ := hmem fe' hfe'
    · obtain ⟨b, hb⟩ := hskF fe hfeF
      exact ⟨b, by rw [h3]; exact hb⟩
    · exact ⟨false, by rw [h4]; exact hlift hl'⟩
  obtain ⟨hob, hget⟩ := transformEffects_get hnF hdata hobjs
  obtain ⟨data, hdata0⟩ := transformEffects_exists (x := x) (fh := unique y.times) (l := F') (out := []) (by
    intro fe' hfe'
    obtain ⟨b, hb⟩ := hsk' fe' hfe'
    refine ⟨b, hb, ?_⟩
    rintro rfl
    obtain ⟨fe, hfeF, hr⟩ := hmem fe' hfe'
    obtain ⟨e1, e2, ⟨ht0, h3⟩ | ⟨t, e0, l', ht0, he0, hne0, hl', h3, h4⟩⟩ := hr
    · have hs : fe.effect.skip = .ok false := by rw [h3] at hb; exact hb
      obtain ⟨xc, d, h1, h2, -⟩ := hget fe (List.mem_filter.2 ⟨hfeF, by simp [hs]⟩)
      refine ⟨xc, d.inj plainEmb, e2 ▸ h1, ?_⟩
      rw [h3, embed_transform, h2]
      rfl
    · obtain ⟨hb', hfi, hts, hin, htabl, -⟩ := lift_fit_cols hl'
      obtain ⟨ht1, ht2⟩ := htab _ _ ht0
      obtain ⟨hcls, -, hst⟩ := effectFit_ok hin
      have hsel : x.select fe.cols = .ok { x with cols := fe.cols } := by
        have hsub : ∀ a ∈ fe.cols, a ∈ x.cols := hcolsub fe hfeF
        unfold Frame.select
        rw [if_pos (by simpa using hsub)]
      obtain ⟨kind, mode, hec⟩ := hcur e0 he0 (by rw [hne0, ht0]; simp)
      have hdd : ∃ dd, l'.transform (some { x with cols := fe.cols }) (unique y.times) = .ok dd := by
        unfold Lift.transform
        rw [hfi, hst]
        have hz : ∀ cs : List String, (∀ a ∈ cs, a ∈ fe.cols) →
            ((({ x with cols := fe.cols } : Frame String τ ℝ).filterTimes (unique y.times)).select cs)
              = .ok { ({ x with cols := fe.cols } : Frame String τ ℝ).filterTimes (unique y.times) with cols := cs } := by
          intro cs hcs
          unfold Frame.select
          rw [if_pos (by simpa [Frame.filterTimes] using hcs)]
        simp only [bind, Except.bind]
        rw [hz _ (by split <;> simp)]
        simp only [Lift.hookTransform, bind, Except.bind]
        have hclsE : ∀ z : Frame String τ ℝ, z.nlevels = 1 → ∃ d,
            l'.inner.cls.transform l'.inner.st.2 z (unique y.times) = .ok d := by
          intro z hz
          rw [hcls]
          show ∃ d, e0.effect.cls.transform _ _ _ = _
          rw [hec]
          have : ∃ d, z.seriesToTensorOrArray = .ok d := by
            unfold Frame.seriesToTensorOrArray
            rw [if_pos hz]
            exact ⟨_, rfl⟩
          cases kind <;> exact this
        obtain ⟨d, hd⟩ := hclsE { ({ x with cols := fe.cols } : Frame String τ ℝ).filterTimes (unique y.times) with
          cols := if ({ x with cols := fe.cols } : Frame String τ ℝ).isEmpty = true then [] else fe.cols } hxl
        rw [hd]
        have hlt1 : l'.table.times.Nodup := by rw [htabl]; exact ht1
        have hlt2 : l'.table.nlevels = 1 := by rw [htabl]; exact ht2
        simp only [Frame.reindexTimes, if_pos hlt1, Frame.seriesToTensorOrArray, hlt2, if_true, hts]
        exact ⟨_, rfl⟩
      obtain ⟨dd, hdd⟩ := hdd
      refine ⟨{ x with cols := fe.cols }, (Transformed.data dd).inj liftEmb, by rw [e2]; exact hsel, ?_⟩
      rw [h4, embed_transform,
        show l'.obj.ofFloat.transform _ (unique y.times) = l'.obj.transform _ (unique y.times) from rfl,
        lift_obj_transform hb' (by rw [hst]), hdd]
      rfl)
  have hobjs' : ∃ objs, nonSkipped F' = .ok objs := by
    unfold nonSkipped
    rw [nonSkipped_ok hsk']
    exact ⟨_, rfl⟩
  obtain ⟨objs, hobjs0⟩ := hobjs'
  have htf' := uniFitData_trend hfit
  have htr' : (withTests tests cfg).trend.fit (if cfg.discrete = true then y.mapVals fun _ v => v / cfg.scale else y) X
      cfg.unitScale = .ok (m.trend.embed plainEmb plainEmb) := by
    simp only [withTests]
    rw [embed_fit]
    erw [htf']
    rfl
  have htd' : (m.trend.embed plainEmb plainEmb : EffectObj (S ⊕ LiftAttrs S ℝ) (Frame String τ ℝ) (Scale ℝ) τ ℝ
      (Tensor ℝ ⊕ LiftData (Tensor ℝ) ℝ) ℝ).transform (some x) (unique y.times) = .ok (m.trendData.inj plainEmb) := by
    rw [embed_transform, htd]
    rfl
  refine ⟨⟨m.trend.embed plainEmb plainEmb, F', m.warnings, m.trendData.inj plainEmb, data, objs, y.flatVals y.rows⟩,
    ?_, hsame, fun θ => embed_call _ _ _ _⟩
  have e1 : (withTests tests cfg).fitFeatures (X.getD (Frame.ofIndex y.times)) = .ok x0 := hx0
  have e2 : (withTests tests cfg).effectScale = .float sc := hsc
  simp only [uniFitData, bind, Except.bind]
  erw [htr']
  simp only [e1, hx, htd', e2]
  erw [hF']
  unfold transformEffects
  simp only [hdata0, hobjs0, pure, Except.pure]

end

section
variable {τ : Type} [LinearOrder τ] {form : TrendForm} {days : τ → ℝ} {p : PiecewiseParams ℝ τ}
  {mode : String → String} {kind : String → Curve}
  {cfg : UniConfig (Option (PiecewiseState ℝ τ)) (Scale ℝ) τ ℝ (Tensor ℝ) ℝ}
  {y : Frame String τ ℝ} {c : String} {X : Option (Frame String τ ℝ)} {x : Frame String τ ℝ}

/-- **C139**, with the effects of the library: a forecaster whose tested effect `e` matches no column can be fitted
without its tests, its data can be prepared with them, and `e` then takes part unmatched. -/
theorem C139_works (hS : CurveSetup days form p mode kind cfg) (hmono : StrictMono days)
    (hT : CurveTraining cfg y c X x) (hv : form.Targets (trendTargets p cfg y c)) {sc : ℝ}
    (hsc : cfg.effectScale = .float sc) {tests : String → Option (LiftTest τ)}
    (hd : tests "exogenous_variables_effect" = none)
    (htab : ∀ n t, tests n = some t → t.table.nlevels = 1 ∧ (∃ a, t.table.cols = [a]) ∧ t.table.times.Nodup)
    {e : EffectSpec (Option (PiecewiseState ℝ τ)) (Frame String τ ℝ) (Scale ℝ) τ ℝ (Tensor ℝ) ℝ} (he : e ∈ cfg.effects)
    {t : LiftTest τ} (ht : tests e.name = some t) (hm0 : matchColumns cfg.compile x.cols e.regex = .ok []) :
    Testable tests cfg sc ∧ ∃ m m' s cs, uniFitData cfg y X = .ok m ∧
      uniFitData (withTests tests cfg) y X = .ok m' ∧ m.trend.st.2 = some s ∧ s.cps = [cs] ∧
      m'.fitted.map (fun fe => (fe.name, fe.cols)) = m.fitted.map (fun fe => (fe.name, fe.cols)) ∧
      Unmatched tests cfg m' e.name t (kind e.name) (mode e.name) ∧
      ∀ θ, form.Sites cs θ → ∃ tr, m'.trend.cls.call m'.trend.st θ m'.trendData [] = .ok tr ∧
        tr.shape = [(unique y.times).length, 1] ∧ tr.WF := by
  have hA : Testable tests cfg sc := by
    refine ⟨hsc, fun n t h => ⟨(htab n t h).1, (htab n t h).2.1⟩, hd, hS.names, hS.noDefault, hS.noTrend, ?_⟩
    intro e he _
    rw [hS.effects e he]
    cases kind e.name <;> rfl
  refine ⟨hA, ?_⟩
  obtain ⟨m, hm⟩ := C118_fits hS hmono hT hv
  obtain ⟨⟨hcls, -, s, cs, hs, hcs, hser, hone⟩, -, -, hall⟩ := curves_fitted hS hmono hT hm
  obtain ⟨yT, x0, x', hyT, htf, hx0, hx, htd0, hfe, hdata0, hobjs, hya⟩ := uniFitData_ok hm
  obtain ⟨x0', hx0', hx'⟩ := hT.features
  rw [hx0] at hx0'
  cases hx0'
  rw [hx] at hx'
  cases hx'
  obtain ⟨m', hm', hsame, htr⟩ := C139_prepared (tests := tests) hsc hd hS.names hS.noDefault hS.noTrend
    (fun e he _ => ⟨_, _, hS.effects e he⟩)
    (fun n t h => ⟨(htab n t h).2.2, (htab n t h).1⟩) (X := X) (y := y) (by
      intro z hz
      rw [hx0] at hz
      cases hz
      have : x.nlevels = x0.nlevels := by
        unfold Frame.locTimes at hx
        split at hx
        · cases hx; rfl
        · cases hx
      rw [← this, hT.dates.flat]) hm
  refine ⟨m, m', s, cs, hm, hm', hs, hcs, hsame, ⟨⟨e, he, rfl, hS.effects e he⟩, ht, ?_⟩, ?_⟩
  · obtain ⟨fes, hff, -, hcase⟩ := fitEffects_ok.1 hfe
    obtain ⟨i, hi, rfl⟩ := List.getElem_of_mem he
    have hli := hff.length_eq
    have hFi := (List.forall₂_iff_get.1 hff).2 i hi (by omega)
    simp only [List.get_eq_getElem] at hFi
    obtain ⟨h1, h2, -⟩ := hFi
    rw [hm0] at h2
    have hmem : (fes[i]'(by omega)) ∈ m.fitted := by
      rcases hcase with ⟨-, hF⟩ | ⟨eff, -, -, hF⟩
      · rw [hF]; exact List.getElem_mem _
      · rw [hF]; exact List.mem_append_left _ (List.getElem_mem _)
    have : (cfg.effects[i].name, ([] : List String)) ∈ m'.fitted.map (fun fe => (fe.name, fe.cols)) := by
      rw [hsame]
      exact List.mem_map.2 ⟨_, hmem, by rw [h1, ← Except.ok.inj h2]⟩
    obtain ⟨fe, hfe, heq⟩ := List.mem_map.1 this
    exact ⟨fe, hfe, (Prod.ext_iff.1 heq).1, (Prod.ext_iff.1 heq).2⟩
  · intro θ hθ
    have hnd : y.times.Nodup := by
      unfold Frame.times
      exact (List.pairwise_map.2 hT.sorted).imp fun h => h.ne
    rw [unique_of_nodup hnd] at htd0 ⊢
    obtain ⟨f, h2⟩ := form_value hcls hS.squeeze hs hcs hser hone hθ hT.dates htd0
    exact ⟨_, (htr θ).trans h2, by simp [columnOf], by simp [columnOf, WF, size]⟩

/-- **C139**: such a forecaster can be fitted without its tests; with the tests of a log or Hill effect that matches no
column its density has no value for any parameters of the sizes of the model, under any priors. -/
theorem C139_fails (hS : CurveSetup days form p mode kind cfg) (hmono : StrictMono days)
    (hT : CurveTraining cfg y c X x) (hv : form.Targets (trendTargets p cfg y c)) {sc : ℝ}
    (hsc : cfg.effectScale = .float sc) {tests : String → Option (LiftTest τ)}
    (hd : tests "exogenous_variables_effect" = none)
    (htab : ∀ n t, tests n = some t → t.table.nlevels = 1 ∧ (∃ a, t.table.cols = [a]) ∧ t.table.times.Nodup)
    {e : EffectSpec (Option (PiecewiseState ℝ τ)) (Frame String τ ℝ) (Scale ℝ) τ ℝ (Tensor ℝ) ℝ} (he : e ∈ cfg.effects)
    (ht : tests e.name ≠ none) (hm0 : matchColumns cfg.compile x.cols e.regex = .ok []) (hk : kind e.name ≠ .linear) :
    ∃ m m' s cs, uniFitData cfg y X = .ok m ∧ uniFitData (withTests tests cfg) y X = .ok m' ∧
      m.trend.st.2 = some s ∧ s.cps = [cs] ∧
      ∀ θ, form.Sites cs θ → ∀ (tp : Priors (Transformed (Tensor ℝ))) (pr : String → Priors (Transformed (Tensor ℝ)))
        (lik : Likelihood) (ns scale L : ℝ),
        fitDensity (tp.embed plainEmb) (testPriors tests cfg pr m'.objs) lik ns scale m' θ ≠ .ok L := by
  obtain ⟨t, ht⟩ := Option.ne_none_iff_exists'.1 ht
  obtain ⟨hA, m, m', s, cs, hm, hm', hs, hcs, -, hU, htr⟩ := C139_works hS hmono hT hv hsc hd htab he ht hm0
  refine ⟨m, m', s, cs, hm, hm', hs, hcs, fun θ hθ tp pr lik ns scale L => ?_⟩
  obtain ⟨tr, h1, h2, h3⟩ := htr θ hθ
  refine C139_curve hA hm' hU hk h1 h2 ?_ h3 tp pr lik ns scale L
  have hnd : y.times.Nodup := by
    unfold Frame.times
    exact (List.pairwise_map.2 hT.sorted).imp fun h => h.ne
  rw [unique_of_nodup hnd]
  have := hT.two
  simp only [Frame.times, List.length_map]
  omega

end

/-! Example: the effect "ads" of the kind `k`, with one test on a training date and one outside, and no columns. -/

noncomputable def exCfg139 (k : Curve) : UniConfig (Option (PiecewiseState ℝ Int)) (Scale ℝ) Int ℝ (Tensor ℝ) ℝ :=
  { exCfg118 .linear (fun _ => false) with effects := [⟨"ads", (k.cls "additive").new, some "a"⟩] }

noncomputable def exX139 : Frame String Int ℝ := { exX118 with cols := [] }

theorem exSetup139 (k : Curve) : CurveSetup (fun n : Int => (n : ℝ)) .linear exP85 exMode118
    (fun n => if n = "ads" then k else .linear) (exCfg139 k) :=
  { exSetup118 .linear (fun _ => false) with
    effects := by
      intro e he
      fin_cases he
      rfl
    default := rfl
    names := by simp [exCfg139]
    noDefault := by simp [exCfg139]
    noTrend := by simp [exCfg139]
    regexes := fun _ _ _ _ => ⟨_, rfl⟩ }

theorem exTraining139 (k : Curve) : CurveTraining (exCfg139 k) exY85 "y" (some exX139) exX139 where
  flat := rfl
  column := rfl
  sorted := by simp [exY85]
  two := by simp [exY85]
  features := by
    refine ⟨exX139, rfl, ?_⟩
    unfold Frame.locTimes
    rw [if_pos (by simp [exX139, exX118, exY85, Frame.times])]
    simp [exX139, exX118, exY85, Frame.times]
  dates := ⟨rfl, by simp [exX139, exX118], by simp [exY85, Frame.times], by simp [exX139, exX118, exY85, Frame.times],
    by simp [exX139, exX118]⟩
  columns := by
    rintro X' ⟨⟩ a ha
    exact ha

theorem exWorks139 (k : Curve) : Testable exTests119 (exCfg139 k) 1 ∧ ∃ m m' s cs,
    uniFitData (exCfg139 k) exY85 (some exX139) = .ok m ∧
    uniFitData (withTests exTests119 (exCfg139 k)) exY85 (some exX139) = .ok m' ∧ m.trend.st.2 = some s ∧ s.cps = [cs] ∧
    m'.fitted.map (fun fe => (fe.name, fe.cols)) = m.fitted.map (fun fe => (fe.name, fe.cols)) ∧
    Unmatched exTests119 (exCfg139 k) m' "ads" exTest119 k "additive" ∧
    ∀ θ, TrendForm.linear.Sites cs θ → ∃ tr, m'.trend.cls.call m'.trend.st θ m'.trendData [] = .ok tr ∧
      tr.shape = [(unique exY85.times).length, 1] ∧ tr.WF := by
  refine C139_works (form := .linear) (exSetup139 k) Int.cast_strictMono (exTraining139 k) trivial rfl
    (by simp [exTests119]) ?_ (e := ⟨"ads", (k.cls "additive").new, some "a"⟩) (by simp [exCfg139]) (by simp [exTests119]) ?_
  · intro n t h
    have : t = exTest119 := by
      unfold exTests119 at h
      split at h
      · simpa using h.symm
      · cases h
    rw [this]
    exact ⟨rfl, ⟨_, rfl⟩, by simp [exTest119, Frame.times]⟩
  · simp [matchColumns, exCfg139, exCfg118, bind, Except.bind, pure, Except.pure]

/-- The hypotheses of `C139_curve` are met by a Hill effect. -/
example : ∃ m' θ tr, Testable exTests119 (exCfg139 .hill) 1 ∧
    uniFitData (withTests exTests119 (exCfg139 .hill)) exY85 (some exX139) = .ok m' ∧
    Unmatched exTests119 (exCfg139 .hill) m' "ads" exTest119 .hill "additive" ∧
    m'.trend.cls.call m'.trend.st θ m'.trendData [] = .ok tr ∧ tr.shape = [3, 1] ∧ tr.WF := by
  obtain ⟨hA, m, m', s, cs, hm, hm', hs, hcs, -, hU, ht⟩ := exWorks139 .hill
  obtain ⟨tr, h1, h2, h3⟩ := ht (exθ118 cs) (exSites118 .linear cs)
  exact ⟨m', exθ118 cs, tr, hA, hm', hU, h1, by simpa [exY85, Frame.times, unique] using h2, h3⟩

end PV
