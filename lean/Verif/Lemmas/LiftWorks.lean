import Verif.Lemmas.LiftEffect

/-!
# Adding lift tests to a forecaster that can be fitted: helper lemmas
-/

set_option linter.unusedSectionVars false

namespace PV
open Tensor

section
variable {S τ V D : Type} [LinearOrder τ] [Zero V]

/-- The wrapper can be fitted when the wrapped effect can. -/
theorem lift_fit_exists {Y K : Type} {l : Lift S Y τ V D K} {y : Y} {x : Frame String τ V} (hx : x.nlevels ≤ 1)
    {sc : K} {e : EffectObj S Y K τ V D K} (h : l.inner.fit y (some x) sc = .ok e) :
    ∃ l', l.fit y (some x) sc = .ok l' ∧ l'.inner = e := by
  unfold Lift.fit
  have hc : ¬ ((defaultHooks (Y := Y) liftTags : Hooks Unit Y K τ V (Tensor V)).tags.supportsMultivariate = false ∧
      ∃ x' ∈ some x, x'.nlevels > 1) := by
    rintro ⟨-, x', hx', h1⟩
    cases hx'
    omega
  rw [baseFit_runs hc, h]
  exact ⟨_, rfl, rfl⟩

/-- The wrapper can be used when the wrapped effect can. -/
theorem lift_transform_exists {Y K : Type} [Div K] {l : Lift S Y τ V D K} (hb : l.base.isFitted = some true)
    (hf : l.inner.cls.tags.filterFh = true) (hs : l.inner.skip = .ok false) {sc : K} (hsc : l.tsScale = some sc)
    (ht : l.table.times.Nodup) (hlv : l.table.nlevels = 1) {x : Frame String τ V} {fh : List τ} {d : Transformed D}
    (h : l.inner.transform (some x) fh = .ok d) : ∃ dd, l.transform (some x) fh = .ok dd := by
  unfold EffectObj.transform baseTransform at h
  unfold Lift.transform
  rw [hb]
  split at h
  · cases h
  · cases h
  · rw [show shouldSkip l.inner.cls.toHooks.tags l.inner.st.1 = .ok false from hs] at h
    simp only [bind, Except.bind, Bool.false_eq_true, if_false] at h
    split at h
    · cases h
    · cases h
    · rename_i x' cols hxx hcols
      cases hxx
      rw [hf] at h
      simp only [if_true] at h
      rw [hcols]
      simp only [bind, Except.bind]
      split at h
      · cases h
      rename_i xs hxs
      simp only [Lift.hookTransform, bind, Except.bind]
      split at h
      · cases h
      rename_i dd hdd
      simp only [Frame.reindexTimes, if_pos ht, Frame.seriesToTensorOrArray, hlv, if_true, hsc]
      exact ⟨_, rfl⟩

theorem fitEffects_add_tests {tests : String → Option (LiftTest τ)} {cfg : UniConfig S (Scale ℝ) τ V D ℝ}
    (hd : tests defaultEffectName = none) {x : Frame String τ V} (hx : x.nlevels ≤ 1) {y : Frame String τ ℝ} {sc : ℝ}
    {F : List (FittedEffect S (Frame String τ ℝ) (Scale ℝ) τ V D ℝ)} {ws : List EffectWarning}
    (h : fitEffects cfg.compile cfg.effects cfg.default (some x) y (.float sc) = .ok (F, ws)) :
    ∃ F', fitEffects cfg.compile (withTests tests cfg).effects (withTests tests cfg).default (some x) y (.float sc)
        = .ok (F', ws) ∧ List.Forall₂ (FitRel cfg.effects tests y x sc) F F' := by
  obtain ⟨fes, hf, hws, hcase⟩ := fitEffects_ok.1 h
  have h1 : ∀ l, (∀ e ∈ l, e ∈ cfg.effects) → ∀ fes, List.Forall₂ (FittedFrom cfg.compile x y (.float sc)) l fes →
      ∃ fes', List.Forall₂ (FittedFrom cfg.compile x y (.float sc))
        (l.map fun e => ⟨e.name, wrapEffect tests e.name e.effect, e.regex⟩) fes' ∧
      List.Forall₂ (FitRel cfg.effects tests y x sc) fes fes' := by
    intro l
    induction l with
    | nil => intro _ fes' hf; cases hf; exact ⟨[], .nil, .nil⟩
    | cons e l ih =>
      intro hsub fes hf
      cases hf with
      | @cons _ fe _ fes h1 h2 =>
        obtain ⟨fes', h3, h4⟩ := ih (fun e he => hsub e (by simp [he])) _ h2
        obtain ⟨hn, hm, hfit⟩ := h1
        cases ht : tests e.name with
        | none =>
          refine ⟨⟨e.name, fe.effect.embed plainEmb plainEmb, fe.cols⟩ :: fes', .cons ⟨rfl, hm, ?_⟩ h3,
            .cons ⟨hn.symm, rfl, .inl ⟨hn ▸ ht, rfl⟩⟩ h4⟩
          simp only [wrapEffect, ht]
          rw [embed_clone, embed_fit, hfit]
          rfl
        | some t =>
          have hin : e.effect.clone.onFloat.fit y (some { x with cols := fe.cols }) sc = .ok fe.effect.onFloat := by
            rw [onFloat_fit, hfit]
            rfl
          obtain ⟨l', hl', hi⟩ := lift_fit_exists (l := t.lift e.effect.clone.onFloat)
            (x := { x with cols := fe.cols }) hx hin
          refine ⟨⟨e.name, l'.obj.ofFloat.embed liftEmb liftEmb, fe.cols⟩ :: fes', .cons ⟨rfl, hm, ?_⟩ h3,
            .cons ⟨hn.symm, rfl, .inr ⟨t, e, l', hn ▸ ht, hsub e (by simp), hn.symm, hl', hi.symm, rfl⟩⟩ h4⟩
          simp only [wrapEffect, ht]
          rw [embed_clone, embed_fit,
            show (t.lift e.effect.onFloat).obj.ofFloat.clone = (t.lift e.effect.clone.onFloat).obj.ofFloat from rfl,
            ofFloat_fit, lift_obj_fit.2 ⟨l', hl', rfl⟩]
          rfl
  obtain ⟨fes', hfes, hrel⟩ := h1 cfg.effects (fun _ h => h) _ hf
  have hcols : ∀ {a b}, List.Forall₂ (FitRel (S := S) (D := D) cfg.effects tests y x sc) a b →
      a.flatMap FittedEffect.cols = b.flatMap FittedEffect.cols := by
    intro a b hab
    induction hab with
    | nil => rfl
    | cons h _ ih => simp [h.2.1, ih]
  have hw : ∀ {a b} tk, List.Forall₂ (FitRel (S := S) (D := D) cfg.effects tests y x sc) a b → warnsOf tk b = warnsOf tk a := by
    intro a b tk hab
    induction hab generalizing tk with
    | nil => rfl
    | cons h _ ih => simp [warnsOf, h.1, h.2.1, ih]
  rw [hcols hrel] at hcase
  rcases hcase with ⟨hr, rfl⟩ | ⟨eff, hr, hfit, rfl⟩
  · exact ⟨fes', fitEffects_ok.2 ⟨fes', hfes, hws.trans (hw _ hrel).symm, .inl ⟨hr, rfl⟩⟩, hrel⟩
  · refine ⟨_, fitEffects_ok.2 ⟨fes', hfes, hws.trans (hw _ hrel).symm, .inr ⟨eff.embed plainEmb plainEmb, hr, ?_, rfl⟩⟩,
      List.rel_append hrel (.cons ⟨rfl, rfl, .inl ⟨hd, rfl⟩⟩ .nil)⟩
    simp only [withTests]
    rw [embed_clone, embed_fit, hfit]
    rfl

/-- A forecaster that can be fitted can be fitted with tests, too. -/
theorem uniFitData_add_tests {tests : String → Option (LiftTest τ)} {cfg : UniConfig S (Scale ℝ) τ V D ℝ} {sc : ℝ}
    (hsc : cfg.effectScale = .float sc)
    (hd : tests defaultEffectName = none) (hn : (cfg.effects.map EffectSpec.name).Nodup)
    (hres : defaultEffectName ∉ cfg.effects.map EffectSpec.name)
    (hnt : "trend" ∉ cfg.effects.map EffectSpec.name)
    (htag : ∀ e ∈ cfg.effects, tests e.name ≠ none → e.effect.cls.tags.filterFh = true)
    (htab : ∀ n t, tests n = some t → t.table.times.Nodup ∧ t.table.nlevels = 1)
    {y : Frame String τ ℝ} {X : Option (Frame String τ V)}
    (hflat : ∀ x, cfg.fitFeatures (X.getD (Frame.ofIndex y.times)) = .ok x → x.nlevels ≤ 1)
    {m : UniFit S (Scale ℝ) τ V D ℝ} (hfit : uniFitData cfg y X = .ok m)
    (hcol : ∀ fe ∈ m.fitted, tests fe.name ≠ none → fe.effect.st.1.inputCols ≠ some []) :
    ∃ m', uniFitData (withTests tests cfg) y X = .ok m' ∧
      ∀ fe ∈ m'.fitted, tests fe.name ≠ none → fe.effect.st.1.inputCols ≠ some [] := by
  obtain ⟨yT, x0, x, hyT, htf, hx0, hx, htd, hfe, hdata, hobjs, hya⟩ := uniFitData_ok hfit
  have hxl : x.nlevels ≤ 1 := by
    unfold Frame.locTimes at hx
    split at hx
    · cases hx
      exact hflat x0 hx0
    · cases hx
  obtain ⟨hnF, hntF⟩ := C17_names hn hres hnt hfe
  rw [hsc] at hfe
  obtain ⟨F', hF', hrel⟩ := fitEffects_add_tests hd hxl hfe
  have hmem : ∀ fe' ∈ F', ∃ fe ∈ m.fitted, FitRel cfg.effects tests y x sc fe fe' := by
    intro fe' hfe'
    obtain ⟨fe, h1, h2⟩ := exists_of_forall₂ hrel hfe'
    exact ⟨fe, h1, h2⟩
  have hcol' : ∀ fe' ∈ F', tests fe'.name ≠ none → fe'.effect.st.1.inputCols ≠ some [] := by
    intro fe' hfe' ht
    obtain ⟨fe, hfeF, h1, h2, ⟨ht0, h3⟩ | ⟨t, e0, l', ht0, he0, hne0, hl', h3, h4⟩⟩ := hmem fe' hfe'
    · rw [h1, ht0] at ht
      exact absurd rfl ht
    · have := hcol fe hfeF (by rw [← h1]; exact ht)
      rw [h4]
      rw [show fe.effect.st = l'.inner.st from congrArg EffectObj.st h3, ← (lift_fit_cols hl').1] at this
      exact this
  have hskF := skips_of_transform hnF hdata
  have hsk' : ∀ fe' ∈ F', ∃ b, fe'.effect.skip = .ok b := by
    intro fe' hfe'
    obtain ⟨fe, hfeF, hr⟩ := hmem fe' hfe'
    rw [← fitRel_skip hr (hcol' fe' hfe')]
    exact hskF fe hfeF
  obtain ⟨hob, hget⟩ := transformEffects_get hnF hdata hobjs
  have htagF : ∀ fe ∈ m.fitted, tests fe.name ≠ none → fe.effect.cls.tags.filterFh = true := by
    intro fe hfeF ht
    rcases (fitEffects_mem hfe fe hfeF).1 with ⟨e, he, hne, hcls⟩ | ⟨hne, -⟩
    · rw [hcls]
      exact htag e he (hne ▸ ht)
    · exact absurd (hne ▸ hd) ht
  obtain ⟨data, hdata0⟩ := transformEffects_exists (x := x) (fh := unique y.times) (l := F') (out := []) (by
    intro fe' hfe'
    obtain ⟨b, hb⟩ := hsk' fe' hfe'
    refine ⟨b, hb, ?_⟩
    rintro rfl
    obtain ⟨fe, hfeF, hr⟩ := hmem fe' hfe'
    have hs := fitRel_skip hr (hcol' fe' hfe')
    rw [hb] at hs
    obtain ⟨xc, d, h1, h2, -⟩ := hget fe (List.mem_filter.2 ⟨hfeF, by simp [hs]⟩)
    refine ⟨xc, ?_⟩
    obtain ⟨e1, e2, ⟨ht0, h3⟩ | ⟨t, e0, l', ht0, he0, hne0, hl', h3, h4⟩⟩ := hr
    · refine ⟨d.inj plainEmb, e2 ▸ h1, ?_⟩
      rw [h3, embed_transform, h2]
      rfl
    · obtain ⟨hb', hfi, hts, hin, htabl, -⟩ := lift_fit_cols hl'
      obtain ⟨ht1, ht2⟩ := htab _ _ ht0
      have hst := (effectFit_ok hin).2.2
      obtain ⟨dd, hdd⟩ := lift_transform_exists (l := l') hfi
        (by rw [← h3]; exact htagF fe hfeF (by rw [ht0]; simp)) (by rw [← h3]; exact hs) hts
        (by rw [htabl]; exact ht1) (by rw [htabl]; exact ht2) (x := xc) (fh := unique y.times) (d := d)
        (by rw [← h3]; exact h2)
      refine ⟨(Transformed.data dd).inj liftEmb, e2 ▸ h1, ?_⟩
      rw [h4, embed_transform,
        show l'.obj.ofFloat.transform (some xc) (unique y.times) = l'.obj.transform (some xc) (unique y.times) from rfl,
        lift_obj_transform hb' (by rw [hst]), hdd]
      rfl)
  have hobjs' : ∃ objs, nonSkipped F' = .ok objs := by
    unfold nonSkipped
    rw [nonSkipped_ok hsk']
    exact ⟨_, rfl⟩
  obtain ⟨objs, hobjs0⟩ := hobjs'
  have htf' := uniFitData_trend hfit
  have htr' : (withTests tests cfg).trend.fit (if cfg.discrete = true then y.mapVals fun _ v => v / cfg.scale else y) X
      cfg.unitScale = .ok (m.trend.embed plainEmb plainEmb) := by
    simp only [withTests]
    rw [embed_fit]
    erw [htf']
    rfl
  have htd' : (m.trend.embed plainEmb plainEmb : EffectObj (S ⊕ LiftAttrs S ℝ) (Frame String τ ℝ) (Scale ℝ) τ V
      (D ⊕ LiftData D ℝ) ℝ).transform (some x) (unique y.times) = .ok (m.trendData.inj plainEmb) := by
    rw [embed_transform, htd]
    rfl
  refine ⟨⟨m.trend.embed plainEmb plainEmb, F', m.warnings, m.trendData.inj plainEmb, data, objs, y.flatVals y.rows⟩,
    ?_, hcol'⟩
  have e1 : (withTests tests cfg).fitFeatures (X.getD (Frame.ofIndex y.times)) = .ok x0 := hx0
  have e2 : (withTests tests cfg).effectScale = .float sc := hsc
  simp only [uniFitData, bind, Except.bind]
  erw [htr']
  simp only [e1, hx, htd', e2]
  erw [hF']
  unfold transformEffects
  simp only [hdata0, hobjs0, pure, Except.pure]

end
end PV
