import Verif.Model.LiftEffect
import Verif.Lemmas.AnyEffect
import Verif.Lemmas.FitEffects
import Verif.Props.Lift
import Verif.Props.Posterior
import Verif.Props.UsualWorks
import Verif.Props.BestNoise

/-!
# Lift experiments among the effects of a forecaster: helper lemmas
-/

set_option linter.unusedSectionVars false

namespace PV
open Tensor

/-! ## The class is the wrapper -/

section
variable {S Y τ V D K : Type} [DecidableEq τ] [Field K]

theorem liftClass_at (l : Lift S Y τ V D K) (b : BaseState) (s : LiftAttrs S K) :
    liftClass (l.at b s) = liftClass l := rfl

/-- Fitting the object is fitting the wrapper. -/
theorem lift_obj_fit {l : Lift S Y τ V D K} {y : Y} {X : Option (Frame String τ V)} {sc : K}
    {o : EffectObj (LiftAttrs S K) Y K τ V (LiftData D K) K} :
    l.obj.fit y X sc = .ok o ↔ ∃ l', l.fit y X sc = .ok l' ∧ o = l'.obj := by
  unfold EffectObj.fit
  by_cases hc : liftTags.supportsMultivariate = false ∧ ∃ x ∈ X, x.nlevels > 1
  · rw [baseFit_refused (h := l.obj.cls.toHooks) hc]
    constructor
    · intro h; cases h
    · rintro ⟨l', h, -⟩
      unfold Lift.fit at h
      cases hi : l.inner.fit y X sc with
      | error e => rw [hi] at h; cases h
      | ok i =>
        rw [hi] at h
        simp only [bind, Except.bind] at h
        rw [baseFit_refused (h := (defaultHooks (Y := Y) liftTags : Hooks Unit Y K τ V (Tensor V))) hc] at h
        cases h
  · rw [baseFit_runs (h := l.obj.cls.toHooks) hc]
    unfold Lift.fit
    rw [baseFit_runs (h := (defaultHooks (Y := Y) liftTags : Hooks Unit Y K τ V (Tensor V))) hc]
    simp only [Lift.obj, liftClass, defaultHooks, bind, Except.bind, Except.map, pure, Except.pure]
    cases hi : l.inner.fit y X sc with
    | error e => constructor <;> simp [hi]
    | ok i =>
      obtain ⟨ic, im, is⟩ := i
      have hi' : ic = l.inner.cls ∧ im = l.inner.made := by
        unfold EffectObj.fit at hi
        simp only [bind, Except.bind] at hi
        split at hi
        · cases hi
        · cases hi; exact ⟨rfl, rfl⟩
      obtain ⟨rfl, rfl⟩ := hi'
      constructor
      · intro h
        cases h
        exact ⟨_, rfl, rfl⟩
      · rintro ⟨l', h, rfl⟩
        cases h
        rfl

/-- The columns of the wrapper and of the wrapped effect agree after a fit. -/
theorem lift_fit_cols {l l' : Lift S Y τ V D K} {y : Y} {x : Frame String τ V} {sc : K}
    (h : l.fit y (some x) sc = .ok l') : l'.base = l'.inner.st.1 ∧ l'.base.isFitted = some true ∧
      l'.tsScale = some sc ∧ l.inner.fit y (some x) sc = .ok l'.inner ∧ l'.table = l.table ∧
      l'.priorScale = l.priorScale := by
  unfold Lift.fit at h
  cases hi : l.inner.fit y (some x) sc with
  | error e => rw [hi] at h; cases h
  | ok i =>
    rw [hi] at h
    simp only [bind, Except.bind] at h
    split at h
    · cases h
    rename_i st hst
    cases h
    have h1 := (effectFit_ok hi).2.2
    have h2 := baseFit_ok hst
    exact ⟨h2.trans h1.symm, by rw [h2], rfl, rfl, rfl, rfl⟩

/-- Transforming with the object is transforming with the wrapper. -/
theorem lift_obj_transform {l : Lift S Y τ V D K} (hb : l.base = l.inner.st.1) {cs : List String}
    (hc : l.inner.st.1.inputCols = some cs) (X : Option (Frame String τ V)) (fh : List τ) :
    l.obj.transform X fh = (l.transform X fh).map .data := by
  unfold EffectObj.transform baseTransform Lift.transform
  simp only [Lift.obj, liftClass, shouldSkip, hb]
  cases h : l.inner.st.1.isFitted with
  | none => rfl
  | some b =>
    cases b with
    | false => rfl
    | true =>
      have : (cs.isEmpty && liftTags.skipIfNoMatch) = false := by simp [liftTags]
      simp only [hc, this, bind, Except.bind]
      cases X with
      | none => rfl
      | some x =>
        simp only [Bool.false_eq_true, if_false]
        rw [show liftTags.filterFh = true from rfl]
        simp only [if_true]
        cases (x.filterTimes fh).select cs with
        | error e => rfl
        | ok x' =>
          simp only
          rw [show (l.at .init ⟨l.inner.st, l.tsScale⟩).hookTransform x' fh = l.hookTransform x' fh from rfl]
          cases l.hookTransform x' fh <;> rfl

end

/-! ## Scales -/

section
variable {S Y τ V D K : Type}

theorem onFloat_fit (e : EffectObj S Y (Scale K) τ V D K) (y : Y) (X : Option (Frame String τ V)) (k : K) :
    e.onFloat.fit y X k = (e.fit y X (.float k)).map EffectObj.onFloat := by
  unfold EffectObj.fit
  by_cases h : e.cls.tags.supportsMultivariate = false ∧ ∃ x ∈ X, x.nlevels > 1
  · rw [baseFit_refused (h := e.cls.toHooks) h, baseFit_refused (h := e.onFloat.cls.toHooks) h]
    rfl
  · rw [baseFit_runs (h := e.cls.toHooks) h, baseFit_runs (h := e.onFloat.cls.toHooks) h]
    simp only [EffectObj.onFloat]
    cases e.cls.fit e.st.2 y X (.float k) <;> rfl

theorem ofFloat_fit [IntCast K] (e : EffectObj S Y K τ V D K) (y : Y) (X : Option (Frame String τ V)) (k : K) :
    e.ofFloat.fit y X (.float k) = (e.fit y X k).map EffectObj.ofFloat := by
  unfold EffectObj.fit
  by_cases h : e.cls.tags.supportsMultivariate = false ∧ ∃ x ∈ X, x.nlevels > 1
  · rw [baseFit_refused (h := e.cls.toHooks) h, baseFit_refused (h := e.ofFloat.cls.toHooks) h]
    rfl
  · rw [baseFit_runs (h := e.cls.toHooks) h, baseFit_runs (h := e.ofFloat.cls.toHooks) h]
    simp only [EffectObj.ofFloat]
    cases e.cls.fit e.st.2 y X k <;> rfl

end

/-! ## The forecaster with and without tests -/

section
variable {S τ V D : Type} [LinearOrder τ] [Zero V]

/-- The same fitted effect without and with its tests. -/
def FitRel (effects : List (EffectSpec S (Frame String τ ℝ) (Scale ℝ) τ V D ℝ)) (tests : String → Option (LiftTest τ)) (y : Frame String τ ℝ) (x : Frame String τ V) (sc : ℝ)
    (fe : FittedEffect S (Frame String τ ℝ) (Scale ℝ) τ V D ℝ)
    (fe' : FittedEffect (S ⊕ LiftAttrs S ℝ) (Frame String τ ℝ) (Scale ℝ) τ V (D ⊕ LiftData D ℝ) ℝ) : Prop :=
  fe'.name = fe.name ∧ fe'.cols = fe.cols ∧
    (tests fe.name = none ∧ fe'.effect = fe.effect.embed plainEmb plainEmb ∨
      ∃ t e0 l', tests fe.name = some t ∧ e0 ∈ effects ∧ e0.name = fe.name ∧
        (t.lift e0.effect.clone.onFloat).fit y (some { x with cols := fe.cols }) sc = .ok l' ∧ fe.effect.onFloat = l'.inner ∧
        fe'.effect = l'.obj.ofFloat.embed liftEmb liftEmb)

theorem fitEffects_tests {tests : String → Option (LiftTest τ)} {cfg : UniConfig S (Scale ℝ) τ V D ℝ}
    (hd : tests defaultEffectName = none) {x : Frame String τ V} {y : Frame String τ ℝ} {sc : ℝ}
    {F' : List (FittedEffect (S ⊕ LiftAttrs S ℝ) (Frame String τ ℝ) (Scale ℝ) τ V (D ⊕ LiftData D ℝ) ℝ)}
    {ws : List EffectWarning}
    (h : fitEffects cfg.compile (withTests tests cfg).effects (withTests tests cfg).default (some x) y (.float sc)
      = .ok (F', ws)) :
    ∃ F, fitEffects cfg.compile cfg.effects cfg.default (some x) y (.float sc) = .ok (F, ws) ∧
      List.Forall₂ (FitRel cfg.effects tests y x sc) F F' := by
  obtain ⟨fes', hf, hws, hcase⟩ := fitEffects_ok.1 h
  have h1 : ∀ l, (∀ e ∈ l, e ∈ cfg.effects) → ∀ fes', List.Forall₂ (FittedFrom cfg.compile x y (.float sc))
      (l.map fun e => ⟨e.name, wrapEffect tests e.name e.effect, e.regex⟩) fes' →
      ∃ fes, List.Forall₂ (FittedFrom cfg.compile x y (.float sc)) l fes ∧
      List.Forall₂ (FitRel cfg.effects tests y x sc) fes fes' := by
    intro l
    induction l with
    | nil => intro _ fes' hf; cases hf; exact ⟨[], .nil, .nil⟩
    | cons e l ih =>
      intro hsub fes' hf
      cases hf with
      | @cons _ fe' _ fes' h1 h2 =>
        obtain ⟨fes, h3, h4⟩ := ih (fun e he => hsub e (by simp [he])) _ h2
        obtain ⟨hn, hm, hfit⟩ := h1
        simp only at hn hm hfit
        cases ht : tests e.name with
        | none =>
          simp only [wrapEffect, ht] at hfit
          rw [embed_clone] at hfit
          obtain ⟨e0, he0, he1⟩ := embed_fit_ok hfit
          exact ⟨⟨e.name, e0, fe'.cols⟩ :: fes, .cons ⟨rfl, hm, he0⟩ h3,
            .cons ⟨hn, rfl, .inl ⟨ht, he1⟩⟩ h4⟩
        | some t =>
          simp only [wrapEffect, ht] at hfit
          rw [embed_clone] at hfit
          obtain ⟨e0, he0, he1⟩ := embed_fit_ok hfit
          rw [show (t.lift e.effect.onFloat).obj.ofFloat.clone = (t.lift e.effect.clone.onFloat).obj.ofFloat from rfl,
            ofFloat_fit] at he0
          cases ho : (t.lift e.effect.clone.onFloat).obj.fit y (some { x with cols := fe'.cols }) sc with
          | error err => rw [ho] at he0; cases he0
          | ok o =>
          rw [ho] at he0
          cases he0
          obtain ⟨l', hl', rfl⟩ := lift_obj_fit.1 ho
          have hin := (lift_fit_cols hl').2.2.2.1
          rw [show (t.lift e.effect.clone.onFloat).inner = e.effect.clone.onFloat from rfl, onFloat_fit] at hin
          cases hi : e.effect.clone.fit y (some { x with cols := fe'.cols }) (.float sc) with
          | error err => rw [hi] at hin; cases hin
          | ok i =>
          rw [hi] at hin
          have hin : i.onFloat = l'.inner := Except.ok.inj hin
          exact ⟨⟨e.name, i, fe'.cols⟩ :: fes, .cons ⟨rfl, hm, hi⟩ h3,
            .cons ⟨hn, rfl, .inr ⟨t, e, l', ht, hsub e (by simp), rfl, hl', hin, he1⟩⟩ h4⟩
  obtain ⟨fes, hfes, hrel⟩ := h1 cfg.effects (fun _ h => h) _ hf
  have hcols : ∀ {a b}, List.Forall₂ (FitRel (S := S) (D := D) cfg.effects tests y x sc) a b →
      a.flatMap FittedEffect.cols = b.flatMap FittedEffect.cols := by
    intro a b hab
    induction hab with
    | nil => rfl
    | cons h _ ih => simp [h.2.1, ih]
  have hw : ∀ {a b} tk, List.Forall₂ (FitRel (S := S) (D := D) cfg.effects tests y x sc) a b → warnsOf tk b = warnsOf tk a := by
    intro a b tk hab
    induction hab generalizing tk with
    | nil => rfl
    | cons h _ ih => simp [warnsOf, h.1, h.2.1, ih]
  rw [← hcols hrel] at hcase
  rcases hcase with ⟨hr, rfl⟩ | ⟨eff, hr, hfit, rfl⟩
  · exact ⟨fes, fitEffects_ok.2 ⟨fes, hfes, hws.trans (hw _ hrel), .inl ⟨hr, rfl⟩⟩, hrel⟩
  · simp only [withTests] at hfit
    rw [embed_clone] at hfit
    obtain ⟨e0, he0, rfl⟩ := embed_fit_ok hfit
    exact ⟨_, fitEffects_ok.2 ⟨fes, hfes, hws.trans (hw _ hrel), .inr ⟨e0, hr, he0, rfl⟩⟩,
      List.rel_append (hrel) (.cons ⟨rfl, rfl, .inl ⟨hd, rfl⟩⟩ .nil)⟩

/-- The same effect in the fitted model, without and with its tests. -/
def ObjRel (effects : List (EffectSpec S (Frame String τ ℝ) (Scale ℝ) τ V D ℝ)) (tests : String → Option (LiftTest τ)) (y : Frame String τ ℝ) (sc : ℝ)
    (data : PyDict (Transformed D)) (data' : PyDict (Transformed (D ⊕ LiftData D ℝ)))
    (p : String × EffectObj S (Frame String τ ℝ) (Scale ℝ) τ V D ℝ)
    (p' : String × EffectObj (S ⊕ LiftAttrs S ℝ) (Frame String τ ℝ) (Scale ℝ) τ V (D ⊕ LiftData D ℝ) ℝ) : Prop :=
  p'.1 = p.1 ∧ ∃ d d', data.get? p.1 = some d ∧ data'.get? p.1 = some d' ∧
    (tests p.1 = none ∧ p'.2 = p.2.embed plainEmb plainEmb ∧ d' = d.inj plainEmb ∨
      ∃ t e0 l' x xc dd, tests p.1 = some t ∧ e0 ∈ effects ∧ e0.name = p.1 ∧
        (t.lift e0.effect.clone.onFloat).fit y (some x) sc = .ok l' ∧ p.2.onFloat = l'.inner ∧
        p'.2 = l'.obj.ofFloat.embed liftEmb liftEmb ∧ l'.transform (some xc) (unique y.times) = .ok dd ∧
        d = .data dd.inner ∧ d' = .data (.inr dd))

/-- What a fit with tests leaves behind, compared to the fit without. -/
structure TestedFit (effects : List (EffectSpec S (Frame String τ ℝ) (Scale ℝ) τ V D ℝ)) (tests : String → Option (LiftTest τ)) (y : Frame String τ ℝ) (sc : ℝ)
    (m : UniFit S (Scale ℝ) τ V D ℝ) (m' : UniFit (S ⊕ LiftAttrs S ℝ) (Scale ℝ) τ V (D ⊕ LiftData D ℝ) ℝ) : Prop where
  trend : m'.trend = m.trend.embed plainEmb plainEmb
  trendData : m'.trendData = m.trendData.inj plainEmb
  yArray : m'.yArray = m.yArray
  warnings : m'.warnings = m.warnings
  objs : List.Forall₂ (ObjRel effects tests y sc m.data m'.data) m.objs m'.objs
  names : (m.objs.map Prod.fst).Nodup
  noTrend : "trend" ∉ m.objs.map Prod.fst
  fitted : ∃ x, List.Forall₂ (FitRel effects tests y x sc) m.fitted m'.fitted
  filter : ∀ fe ∈ m.fitted, tests fe.name ≠ none → fe.effect.cls.tags.filterFh = true
  nodup : (m.fitted.map FittedEffect.name).Nodup ∧ (m'.fitted.map FittedEffect.name).Nodup
  kept : m.objs = (kept m.fitted).map (fun e => (e.name, e.effect)) ∧
    m'.objs = (PV.kept m'.fitted).map (fun e => (e.name, e.effect))


theorem transformEffects_exists {S Y Sc : Type} {x : Frame String τ V} {fh : List τ} :
    ∀ {l : List (FittedEffect S Y Sc τ V D ℝ)} {out : PyDict (Transformed D)},
    (∀ fe ∈ l, ∃ b, fe.effect.skip = .ok b ∧ (b = false → ∃ xc d, x.select fe.cols = .ok xc ∧
      fe.effect.transform (some xc) fh = .ok d)) →
    ∃ data, l.foldlM (transformStep x fh) out = .ok data
  | [], out, _ => ⟨out, rfl⟩
  | fe :: l, out, h => by
    obtain ⟨b, hb, hd⟩ := h fe (by simp)
    rw [List.foldlM_cons]
    have ih := fun out => transformEffects_exists (l := l) (out := out) fun fe' hfe' => h fe' (by simp [hfe'])
    cases b with
    | true =>
      simp only [transformStep, hb, bind, Except.bind, if_true, pure, Except.pure]
      exact ih _
    | false =>
      obtain ⟨xc, d, hxc, hd⟩ := hd rfl
      simp only [transformStep, hb, bind, Except.bind, hxc, hd, pure, Except.pure, Bool.false_eq_true,
        if_false]
      exact ih _

theorem skips_of_transform {S Y Sc : Type} {fitted : List (FittedEffect S Y Sc τ V D ℝ)} {x : Frame String τ V}
    {fh : List τ} {data : PyDict (Transformed D)} (hn : (fitted.map FittedEffect.name).Nodup)
    (h : transformEffects fitted x fh = .ok data) : ∀ fe ∈ fitted, ∃ b, fe.effect.skip = .ok b := by
  unfold transformEffects at h
  obtain ⟨new, hnew, hf, hsk⟩ := foldlM_transformStep hn (by simp [PyDict.keys]) h
  exact hsk

theorem fitRel_skip {effects : List (EffectSpec S (Frame String τ ℝ) (Scale ℝ) τ V D ℝ)} {tests : String → Option (LiftTest τ)} {y : Frame String τ ℝ} {x : Frame String τ V} {sc : ℝ}
    {fe : FittedEffect S (Frame String τ ℝ) (Scale ℝ) τ V D ℝ}
    {fe' : FittedEffect (S ⊕ LiftAttrs S ℝ) (Frame String τ ℝ) (Scale ℝ) τ V (D ⊕ LiftData D ℝ) ℝ}
    (h : FitRel effects tests y x sc fe fe')
    (hcol : tests fe'.name ≠ none → fe'.effect.st.1.inputCols ≠ some []) : fe.effect.skip = fe'.effect.skip := by
  obtain ⟨h1, h2, ⟨ht, h3⟩ | ⟨t, e0, l', ht, he0, hne0, hl', h3, h4⟩⟩ := h
  · rw [h3]; rfl
  · rw [h1, ht] at hcol
    have hcol := hcol (by simp)
    rw [h4] at hcol ⊢
    obtain ⟨hb, hfi, -, hin, -⟩ := lift_fit_cols hl'
    have hst := (effectFit_ok hin).2.2
    have hob : (l'.obj.ofFloat.embed (liftEmb (A := S)) (liftEmb (A := D))).st.1 = l'.inner.st.1 := hb
    rw [hob] at hcol
    rw [show fe.effect.skip = l'.inner.skip from congrArg EffectObj.skip h3]
    simp only [EffectObj.skip, shouldSkip, hob]
    rw [hst] at hcol ⊢
    simp only [ne_eq, Option.some.injEq] at hcol
    have : (if ({ x with cols := fe.cols } : Frame String τ V).isEmpty then [] else fe.cols).isEmpty = false := by
      cases hh : (if ({ x with cols := fe.cols } : Frame String τ V).isEmpty then [] else fe.cols) with
      | nil => exact absurd hh hcol
      | cons a l => rfl
    simp only [this]
    simp

/-- A fit with tests is a fit without them, and the models correspond. -/
theorem uniFitData_tests {tests : String → Option (LiftTest τ)} {cfg : UniConfig S (Scale ℝ) τ V D ℝ} {sc : ℝ}
    (hsc : cfg.effectScale = .float sc)
    (hd : tests defaultEffectName = none) (hn : (cfg.effects.map EffectSpec.name).Nodup)
    (hres : defaultEffectName ∉ cfg.effects.map EffectSpec.name)
    (hnt : "trend" ∉ cfg.effects.map EffectSpec.name)
    (htag : ∀ e ∈ cfg.effects, tests e.name ≠ none → e.effect.cls.tags.filterFh = true)
    {y : Frame String τ ℝ} {X : Option (Frame String τ V)}
    {m' : UniFit (S ⊕ LiftAttrs S ℝ) (Scale ℝ) τ V (D ⊕ LiftData D ℝ) ℝ}
    (hfit : uniFitData (withTests tests cfg) y X = .ok m')
    (hcol : ∀ fe ∈ m'.fitted, tests fe.name ≠ none → fe.effect.st.1.inputCols ≠ some []) :
    ∃ m, uniFitData cfg y X = .ok m ∧ TestedFit cfg.effects tests y sc m m' := by
  obtain ⟨yT, x0, x, hyT, htf, hx0, hx, htd, hfe, hdata, hobjs, hya⟩ := uniFitData_ok hfit
  have hnames : (withTests tests cfg).effects.map EffectSpec.name = cfg.effects.map EffectSpec.name := by
    simp [withTests, Function.comp_def]
  obtain ⟨hn', -⟩ := C17_names (by rw [hnames]; exact hn) (by rw [hnames]; exact hres) (by rw [hnames]; exact hnt) hfe
  rw [show (withTests tests cfg).effectScale = .float sc from hsc] at hfe
  obtain ⟨F, hF, hrel⟩ := fitEffects_tests hd hfe
  change fitEffects cfg.compile cfg.effects cfg.default (some x) y (.float sc) = _ at hF
  change List.Forall₂ (FitRel cfg.effects tests y x sc) _ _ at hrel
  have hskips := skips_of_transform hn' hdata
  obtain ⟨hob', hget'⟩ := transformEffects_get hn' hdata hobjs
  have hmem : ∀ fe ∈ F, ∃ fe' ∈ m'.fitted, FitRel cfg.effects tests y x sc fe fe' := by
    intro fe hfe
    obtain ⟨fe', h1, h2⟩ := exists_of_forall₂ (List.Forall₂.flip hrel) hfe
    exact ⟨fe', h1, h2⟩
  have htagF : ∀ fe ∈ F, tests fe.name ≠ none → fe.effect.cls.tags.filterFh = true := by
    intro fe hfe ht
    rcases (fitEffects_mem hF fe hfe).1 with ⟨e, he, hne, hcls⟩ | ⟨hne, -⟩
    · rw [hcls]
      exact htag e he (hne ▸ ht)
    · exact absurd (hne ▸ hd) ht
  have htrans : ∀ fe ∈ F, ∀ fe' ∈ m'.fitted, FitRel cfg.effects tests y x sc fe fe' → fe'.effect.skip = .ok false →
      ∃ xc d d', x.select fe.cols = .ok xc ∧ fe.effect.transform (some xc) (unique y.times) = .ok d ∧
        m'.data.get? fe.name = some d' ∧
        (tests fe.name = none ∧ fe'.effect = fe.effect.embed plainEmb plainEmb ∧ d' = d.inj plainEmb ∨
        ∃ t e0 l' x xc dd, tests fe.name = some t ∧ e0 ∈ cfg.effects ∧ e0.name = fe.name ∧ (t.lift e0.effect.clone.onFloat).fit y (some x) sc = .ok l' ∧
          fe.effect.onFloat = l'.inner ∧ fe'.effect = l'.obj.ofFloat.embed liftEmb liftEmb ∧
          l'.transform (some xc) (unique y.times) = .ok dd ∧ d = .data dd.inner ∧ d' = .data (.inr dd)) := by
    intro fe hfe fe' hfe' hr hsk
    obtain ⟨xc, d', hxc, hd', hg⟩ := hget' fe' (List.mem_filter.2 ⟨hfe', by simp [hsk]⟩)
    have hs := fitRel_skip hr (hcol fe' hfe')
    obtain ⟨h1, h2, ⟨ht, h3⟩ | ⟨t, e0, l', ht, he0, hne0, hl', h3, h4⟩⟩ := hr
    · rw [h3] at hd'
      obtain ⟨d, hd0, rfl⟩ := embed_transform_ok hd'
      exact ⟨xc, d, _, h2 ▸ hxc, hd0, h1 ▸ hg, .inl ⟨ht, h3, rfl⟩⟩
    · rw [h4] at hd'
      obtain ⟨dl, hd0, rfl⟩ := embed_transform_ok hd'
      obtain ⟨hb, hfi, -, hin, -⟩ := lift_fit_cols hl'
      have hst := (effectFit_ok hin).2.2
      rw [show l'.obj.ofFloat.transform (some xc) (unique y.times) = l'.obj.transform (some xc) (unique y.times) from rfl,
        lift_obj_transform hb (by rw [hst])] at hd0
      cases hdd : l'.transform (some xc) (unique y.times) with
      | error err => rw [hdd] at hd0; cases hd0
      | ok dd =>
        rw [hdd] at hd0
        cases hd0
        have htg : (t.lift e0.effect.clone.onFloat).inner.cls.tags.filterFh = true := by
          have := htagF fe hfe (by rw [ht]; simp)
          rw [show fe.effect.cls.tags = l'.inner.cls.tags from congrArg (fun e => e.cls.tags) h3,
            (effectFit_ok hin).1] at this
          exact this
        have hti := (C30_inner_data htg hl' hdd).2 (by rw [← h3]; exact hs.trans hsk)
        exact ⟨xc, .data dd.inner, _, h2 ▸ hxc, by
          rw [← h3] at hti; exact hti, h1 ▸ hg,
          .inr ⟨t, e0, l', _, xc, dd, ht, he0, hne0, hl', h3, h4, hdd, rfl, rfl⟩⟩
  have hskF : ∀ fe ∈ F, ∃ b, fe.effect.skip = .ok b := by
    intro fe hfe
    obtain ⟨fe', hfe', hr⟩ := hmem fe hfe
    rw [fitRel_skip hr (hcol fe' hfe')]
    exact hskips fe' hfe'
  obtain ⟨data, hdata0⟩ := transformEffects_exists (x := x) (fh := unique y.times) (l := F) (out := []) (by
    intro fe hfe
    obtain ⟨b, hb⟩ := hskF fe hfe
    refine ⟨b, hb, ?_⟩
    rintro rfl
    obtain ⟨fe', hfe', hr⟩ := hmem fe hfe
    rw [fitRel_skip hr (hcol fe' hfe')] at hb
    obtain ⟨xc, d, d', h1, h2, -⟩ := htrans fe hfe fe' hfe' hr hb
    exact ⟨xc, d, h1, h2⟩)
  have hobjsF : ∃ objs, nonSkipped F = .ok objs := by
    unfold nonSkipped
    rw [nonSkipped_ok hskF]
    exact ⟨_, rfl⟩
  obtain ⟨objs, hobjs0⟩ := hobjsF
  obtain ⟨hnF, hntF⟩ := C17_names hn hres hnt hF
  obtain ⟨hob, hget⟩ := transformEffects_get hnF hdata0 hobjs0
  have htf' := uniFitData_trend hfit
  obtain ⟨tr, htr, htr'⟩ := embed_fit_ok htf'
  rw [htr'] at htd
  obtain ⟨td, htd0, htd'⟩ := embed_transform_ok htd
  refine ⟨⟨tr, F, m'.warnings, td, data, objs, y.flatVals y.rows⟩, ?_, ⟨htr', htd', hya, rfl, ?_, ?_, ?_, ⟨x, hrel⟩, htagF, ⟨hnF, hn'⟩, ⟨hob, hob'⟩⟩⟩
  · have e1 : cfg.fitFeatures (X.getD (Frame.ofIndex y.times)) = .ok x0 := hx0
    simp only [uniFitData, bind, Except.bind]
    simp only [withTests] at htr
    erw [htr]
    simp only [e1, hx, htd0, hsc, hF]
    unfold transformEffects
    simp only [hdata0, hobjs0, pure, Except.pure]
  · have key : ∀ {a b}, List.Forall₂ (FitRel cfg.effects tests y x sc) a b → (∀ fe ∈ a, fe ∈ F) →
        (∀ fe ∈ b, fe ∈ m'.fitted) →
        List.Forall₂ (ObjRel cfg.effects tests y sc data m'.data) ((kept a).map fun e => (e.name, e.effect))
          ((kept b).map fun e => (e.name, e.effect)) := by
      intro a b hab ha hb
      induction hab with
      | nil => exact .nil
      | @cons fe fe' a b hr hab ih =>
        have ih := ih (fun e he => ha e (by simp [he])) (fun e he => hb e (by simp [he]))
        have hs := fitRel_skip hr (hcol fe' (hb fe' (by simp)))
        by_cases hk : fe'.effect.skip = .ok false
        · have e1 : kept (fe :: a) = fe :: kept a := by simp [kept, hs, hk]
          have e2 : kept (fe' :: b) = fe' :: kept b := by simp [kept, hk]
          rw [e1, e2]
          refine .cons ?_ ih
          obtain ⟨xc, d, d', h1, h2, h3, h4⟩ := htrans fe (ha fe (by simp)) fe' (hb fe' (by simp)) hr hk
          obtain ⟨xc1, d1, h5, h6, h7⟩ := hget fe (List.mem_filter.2 ⟨ha fe (by simp), by simp [hs, hk]⟩)
          rw [h1] at h5
          cases h5
          rw [h2] at h6
          cases h6
          exact ⟨hr.1, d, d', h7, h3, h4⟩
        · have e1 : kept (fe :: a) = kept a := by simp [kept, hs, hk]
          have e2 : kept (fe' :: b) = kept b := by simp [kept, hk]
          rw [e1, e2]
          exact ih
    simp only [hob, hob']
    exact key hrel (fun _ h => h) (fun _ h => h)
  · simp only [hob, List.map_map, Function.comp_def]
    exact hnF.sublist (List.filter_sublist.map _)
  · simp only [hob, List.map_map, Function.comp_def]
    intro h
    exact hntF ((List.filter_sublist.map _).subset h)

end
end PV
