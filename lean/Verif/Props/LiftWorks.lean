import Verif.Lemmas.LiftWorks
import Verif.Props.LiftTests
import Verif.Props.CurvesWork
import Verif.Lemmas.Natural

/-!
# C119: lift tests with the effects of the library

Forecasters with a piecewise linear or logistic trend and linear, log and Hill effects can be fitted
with lift tests, and the tests enter their forecasts through the parameters only.
-/

set_option linter.unusedSectionVars false

namespace PV
open Tensor

section
variable {S τ V D : Type} [LinearOrder τ] [Zero V]

/-! ## Forecasts -/

/-- One effect on given dates, with and without its tests. -/
theorem tested_value {effects : List (EffectSpec S (Frame String τ ℝ) (Scale ℝ) τ V D ℝ)}
    {tests : String → Option (LiftTest τ)} {y : Frame String τ ℝ} {x : Frame String τ V} {sc : ℝ}
    {fe : FittedEffect S (Frame String τ ℝ) (Scale ℝ) τ V D ℝ}
    {fe' : FittedEffect (S ⊕ LiftAttrs S ℝ) (Frame String τ ℝ) (Scale ℝ) τ V (D ⊕ LiftData D ℝ) ℝ}
    (hr : FitRel effects tests y x sc fe fe')
    (hcol : tests fe'.name ≠ none → fe'.effect.st.1.inputCols ≠ some [])
    (htag : tests fe.name ≠ none → fe.effect.cls.tags.filterFh = true) (hsk : fe'.effect.skip = .ok false)
    {xc : Frame String τ V} {fh : List τ} {d' : Transformed (D ⊕ LiftData D ℝ)}
    (hd' : fe'.effect.transform (some xc) fh = .ok d') :
    ∃ d, fe.effect.transform (some xc) fh = .ok d ∧ ∀ θ p v,
      fe'.effect.cls.call fe'.effect.st θ d' p = .ok v → fe.effect.cls.call fe.effect.st θ d p = .ok v := by
  have hs := fitRel_skip hr hcol
  obtain ⟨h1, h2, ⟨ht, h3⟩ | ⟨t, e0, l', ht, he0, hne0, hl', h3, h4⟩⟩ := hr
  · rw [h3] at hd' ⊢
    obtain ⟨d, hd0, rfl⟩ := embed_transform_ok hd'
    exact ⟨d, hd0, fun θ p v hv => by rwa [embed_call] at hv⟩
  · rw [h4] at hd' ⊢
    obtain ⟨dl, hd0, rfl⟩ := embed_transform_ok hd'
    obtain ⟨hb, hfi, -, hin, -⟩ := lift_fit_cols hl'
    have hst := (effectFit_ok hin).2.2
    rw [show l'.obj.ofFloat.transform (some xc) fh = l'.obj.transform (some xc) fh from rfl,
      lift_obj_transform hb (by rw [hst])] at hd0
    cases hdd : l'.transform (some xc) fh with
    | error err => rw [hdd] at hd0; cases hd0
    | ok dd =>
      rw [hdd] at hd0
      cases hd0
      have htg : (t.lift e0.effect.clone.onFloat).inner.cls.tags.filterFh = true := by
        have := htag (by rw [ht]; simp)
        rw [show fe.effect.cls.tags = l'.inner.cls.tags from congrArg (fun e => e.cls.tags) h3,
          (effectFit_ok hin).1] at this
        exact this
      have hti := (C30_inner_data htg hl' hdd).2 (by rw [← h3]; exact hs.trans hsk)
      rw [← h3] at hti
      refine ⟨.data dd.inner, hti, fun θ p v hv => ?_⟩
      rw [embed_call] at hv
      cases hpd : l'.predict θ dd p with
      | error err =>
        replace hv : (l'.predict θ dd p).map Prod.fst = .ok v := hv
        rw [hpd] at hv
        cases hv
      | ok r =>
        replace hv : (l'.predict θ dd p).map Prod.fst = .ok v := hv
        rw [hpd] at hv
        cases hv
        have := C30_value (terms := r.2) hpd
        rw [← h3] at this
        exact this

/-- The effects on given dates, with and without tests. -/
theorem transformEffects_tests {effects : List (EffectSpec S (Frame String τ ℝ) (Scale ℝ) τ V D ℝ)}
    {tests : String → Option (LiftTest τ)} {y : Frame String τ ℝ} {x : Frame String τ V} {sc : ℝ}
    {F : List (FittedEffect S (Frame String τ ℝ) (Scale ℝ) τ V D ℝ)}
    {F' : List (FittedEffect (S ⊕ LiftAttrs S ℝ) (Frame String τ ℝ) (Scale ℝ) τ V (D ⊕ LiftData D ℝ) ℝ)}
    (hrel : List.Forall₂ (FitRel effects tests y x sc) F F')
    (hcol : ∀ fe ∈ F', tests fe.name ≠ none → fe.effect.st.1.inputCols ≠ some [])
    (htag : ∀ fe ∈ F, tests fe.name ≠ none → fe.effect.cls.tags.filterFh = true)
    (hn : (F.map FittedEffect.name).Nodup) (hn' : (F'.map FittedEffect.name).Nodup)
    {x₁ : Frame String τ V} {fh : List τ} {data' : PyDict (Transformed (D ⊕ LiftData D ℝ))}
    (h : transformEffects F' x₁ fh = .ok data') :
    ∃ data, transformEffects F x₁ fh = .ok data ∧
      List.Forall₂ (fun fe fe' => fe'.name = fe.name ∧ ∃ d d', data.get? fe.name = some d ∧
        data'.get? fe.name = some d' ∧ ∀ θ p v,
        fe'.effect.cls.call fe'.effect.st θ d' p = .ok v → fe.effect.cls.call fe.effect.st θ d p = .ok v)
        (kept F) (kept F') := by
  have hsk := skips_of_transform hn' h
  have hobjs : ∃ objs, nonSkipped F' = .ok objs := by
    unfold nonSkipped
    rw [nonSkipped_ok hsk]
    exact ⟨_, rfl⟩
  obtain ⟨objs', hobjs'⟩ := hobjs
  obtain ⟨-, hget'⟩ := transformEffects_get hn' h hobjs'
  have hmem : ∀ fe ∈ F, ∃ fe' ∈ F', FitRel effects tests y x sc fe fe' := by
    intro fe hfe
    obtain ⟨fe', h1, h2⟩ := exists_of_forall₂ (List.Forall₂.flip hrel) hfe
    exact ⟨fe', h1, h2⟩
  have hskF : ∀ fe ∈ F, ∃ b, fe.effect.skip = .ok b := by
    intro fe hfe
    obtain ⟨fe', hfe', hr⟩ := hmem fe hfe
    rw [fitRel_skip hr (hcol fe' hfe')]
    exact hsk fe' hfe'
  have hval : ∀ fe ∈ F, ∀ fe' ∈ F', FitRel effects tests y x sc fe fe' → fe'.effect.skip = .ok false →
      ∃ xc d d', x₁.select fe.cols = .ok xc ∧ fe.effect.transform (some xc) fh = .ok d ∧
        data'.get? fe.name = some d' ∧ ∀ θ p v,
        fe'.effect.cls.call fe'.effect.st θ d' p = .ok v → fe.effect.cls.call fe.effect.st θ d p = .ok v := by
    intro fe hfe fe' hfe' hr hs'
    obtain ⟨xc, d', hxc, hd', hg⟩ := hget' fe' (List.mem_filter.2 ⟨hfe', by simp [hs']⟩)
    obtain ⟨d, hd, hv⟩ := tested_value hr (hcol fe' hfe') (htag fe hfe) hs' hd'
    exact ⟨xc, d, d', hr.2.1 ▸ hxc, hd, hr.1 ▸ hg, hv⟩
  obtain ⟨data, hdata⟩ := transformEffects_exists (x := x₁) (fh := fh) (l := F) (out := []) (by
    intro fe hfe
    obtain ⟨b, hb⟩ := hskF fe hfe
    refine ⟨b, hb, ?_⟩
    rintro rfl
    obtain ⟨fe', hfe', hr⟩ := hmem fe hfe
    obtain ⟨xc, d, d', h1, h2, -⟩ := hval fe hfe fe' hfe' hr (by rw [← fitRel_skip hr (hcol fe' hfe')]; exact hb)
    exact ⟨xc, d, h1, h2⟩)
  refine ⟨data, hdata, ?_⟩
  have hobjsF : ∃ objs, nonSkipped F = .ok objs := by
    unfold nonSkipped
    rw [nonSkipped_ok hskF]
    exact ⟨_, rfl⟩
  obtain ⟨objs, hobjs⟩ := hobjsF
  obtain ⟨-, hget⟩ := transformEffects_get hn hdata hobjs
  have key : ∀ {a b}, List.Forall₂ (FitRel effects tests y x sc) a b → (∀ fe ∈ a, fe ∈ F) → (∀ fe ∈ b, fe ∈ F') →
      List.Forall₂ (fun fe fe' => fe'.name = fe.name ∧ ∃ d d', data.get? fe.name = some d ∧
        data'.get? fe.name = some d' ∧ ∀ θ p v,
        fe'.effect.cls.call fe'.effect.st θ d' p = .ok v → fe.effect.cls.call fe.effect.st θ d p = .ok v)
        (kept a) (kept b) := by
    intro a b hab ha hb
    induction hab with
    | nil => exact .nil
    | @cons fe fe' a b hr hab ih =>
      have ih := ih (fun e he => ha e (by simp [he])) (fun e he => hb e (by simp [he]))
      have hs := fitRel_skip hr (hcol fe' (hb fe' (by simp)))
      by_cases hk : fe'.effect.skip = .ok false
      · have e1 : kept (fe :: a) = fe :: kept a := by simp [kept, hs, hk]
        have e2 : kept (fe' :: b) = fe' :: kept b := by simp [kept, hk]
        rw [e1, e2]
        refine .cons ⟨hr.1, ?_⟩ ih
        obtain ⟨xc, d, d', h1, h2, h3, h4⟩ := hval fe (ha fe (by simp)) fe' (hb fe' (by simp)) hr hk
        obtain ⟨xc1, d1, h5, h6, h7⟩ := hget fe (List.mem_filter.2 ⟨ha fe (by simp), by simp [hs, hk]⟩)
        rw [h1] at h5
        cases h5
        rw [h2] at h6
        cases h6
        exact ⟨d, d', h7, h3, h4⟩
      · have e1 : kept (fe :: a) = kept a := by simp [kept, hs, hk]
        have e2 : kept (fe' :: b) = kept b := by simp [kept, hk]
        rw [e1, e2]
        exact ih
  exact key hrel (fun _ h => h) (fun _ h => h)

/-- **C119**, forecasts: for the same parameters the forecaster with tests forecasts what the one without them
forecasts (mean and contributions), on all dates. -/
theorem C119_forecast {tests : String → Option (LiftTest τ)} {cfg : UniConfig S (Scale ℝ) τ V D ℝ} {sc : ℝ}
    (hA : Testable tests cfg sc) {y : Frame String τ ℝ} {X : Option (Frame String τ V)}
    {m' : UniFit (S ⊕ LiftAttrs S ℝ) (Scale ℝ) τ V (D ⊕ LiftData D ℝ) ℝ}
    (hfit : uniFitData (withTests tests cfg) y X = .ok m') (hcol : TestedColumns tests m') :
    ∃ m, uniFitData cfg y X = .ok m ∧ ∀ (X₁ : Option (Frame String τ V)) (fh : List τ) (θ : SiteEnv ℝ) td' data' st,
      uniPredictData (withTests tests cfg) m' X₁ fh = .ok (td', data') →
      computeMean (m'.trend.cls.call m'.trend.st) td' data' (callsOf m'.objs) θ = .ok st →
      ∃ td data, uniPredictData cfg m X₁ fh = .ok (td, data) ∧
        computeMean (m.trend.cls.call m.trend.st) td data (callsOf m.objs) θ = .ok st := by
  obtain ⟨m, hm, hR⟩ := uniFitData_tests hA.scale hA.default hA.nodup hA.reserved hA.notTrend hA.filter hfit hcol
  refine ⟨m, hm, fun X₁ fh θ td' data' st hp hst => ?_⟩
  obtain ⟨x, hrel⟩ := hR.fitted
  unfold uniPredictData at hp
  simp only [bind, Except.bind] at hp
  split at hp
  · cases hp
  rename_i x₁ hx₁
  split at hp
  · cases hp
  rename_i td1 htd
  split at hp
  · cases hp
  rename_i data1 hdata
  cases hp
  rw [hR.trend] at htd
  obtain ⟨td, htd0, rfl⟩ := embed_transform_ok htd
  obtain ⟨data, hdata0, hcalls⟩ := transformEffects_tests hrel hcol hR.filter hR.nodup.1 hR.nodup.2 hdata
  refine ⟨td, data, ?_, ?_⟩
  · unfold uniPredictData
    have e1 : cfg.features (X₁.getD (Frame.ofIndex fh)) = .ok x₁ := hx₁
    simp only [bind, Except.bind, e1, htd0, hdata0, pure, Except.pure]
  · unfold computeMean at hst ⊢
    rw [hR.trend, embed_call] at hst
    simp only [bind, Except.bind] at hst ⊢
    cases hv : m.trend.cls.call m.trend.st θ td [] with
    | error err => rw [hv] at hst; cases hst
    | ok t =>
      rw [hv] at hst
      simp only at hst ⊢
      rw [hR.kept.1]
      rw [hR.kept.2] at hst
      generalize ({ mean := t, sites := [("trend", t)], predicted := [("trend", t)] } : MeanState ℝ) = s0 at hst ⊢
      generalize kept m.fitted = a at hcalls
      generalize kept m'.fitted = b at hcalls hst
      induction hcalls generalizing s0 with
      | nil => exact hst
      | @cons fe fe' a b hr hab ih =>
        obtain ⟨hne, d, d', hd, hd', hval⟩ := hr
        simp only [callsOf, List.map_cons, List.foldlM_cons, bind, Except.bind] at hst ⊢
        rw [hne] at hst
        cases h1 : meanStep θ data' s0 (fe.name, fe'.effect.cls.call fe'.effect.st) with
        | error err => rw [h1] at hst; cases hst
        | ok s1 =>
          rw [h1] at hst
          have h2 : meanStep θ data s0 (fe.name, fe.effect.cls.call fe.effect.st) = .ok s1 := by
            unfold meanStep at h1 ⊢
            simp only [PyDict.getItem_ok.2 hd, PyDict.getItem_ok.2 hd', bind, Except.bind] at h1 ⊢
            cases h3 : fe'.effect.cls.call fe'.effect.st (θ.scope fe.name) d' s0.predicted with
            | error err => rw [h3] at h1; cases h1
            | ok v =>
              rw [h3] at h1
              rw [hval _ _ _ h3]
              exact h1
          rw [h2]
          exact ih s1 hst

end

/-! ## Forecasters of the library -/

section
variable {τ : Type} [LinearOrder τ] {form : TrendForm} {days : τ → ℝ} {p : PiecewiseParams ℝ τ}
  {cfg : UniConfig (Option (PiecewiseState ℝ τ)) (Scale ℝ) τ ℝ (Tensor ℝ) ℝ} {y : Frame String τ ℝ}
  {c : String} {X : Option (Frame String τ ℝ)} {x : Frame String τ ℝ}
  {m : UniFit (Option (PiecewiseState ℝ τ)) (Scale ℝ) τ ℝ (Tensor ℝ) ℝ}
  {mode : String → String} {kind : String → Curve}

theorem addMul_column {D : Type} {md : String} {raw : EffectCall D ℝ} {θ : SiteEnv ℝ} {d : D}
    {p : PyDict (Tensor ℝ)} {tr v : Tensor ℝ} {N : Nat} (hp : p.get? "trend" = some tr) (hs : tr.shape = [N, 1])
    (hv : AddMul.call ⟨md, raw⟩ θ d p = .ok v) : v.shape = [N, 1] ∧ v.WF := by
  unfold AddMul.call AddMul.predict trendAsColumn at hv
  simp only [PyDict.getItem_ok.2 hp, bind, Except.bind, Tensor.ndim, hs, List.length_cons, List.length_nil,
    Nat.reduceAdd, OfNat.ofNat_ne_one, if_false] at hv
  split at hv
  · cases hv
  rename_i w hw
  split at hv
  · cases hv
  rename_i u hu
  obtain ⟨hu1, hu2⟩ := reshape_wf hu
  split at hv
  · cases hv
    exact ⟨hu2, hu1⟩
  · obtain ⟨c, hc, hcs, hcw, -⟩ := binop_same (K := ℝ) (L := ℝ) (M := ℝ) (· * ·) (a := tr) (b := u) (by rw [hu2, hs])
    rw [hc] at hv
    cases hv
    exact ⟨hcs.trans hs, hcw⟩

/-- Trend and effects of such a forecaster are columns. -/
theorem curves_columns (hS : CurveSetup days form p mode kind cfg) (hmono : StrictMono days)
    (hT : CurveTraining cfg y c X x) (hfit : uniFitData cfg y X = .ok m) {s : PiecewiseState ℝ τ} {cs : List ℝ}
    (hs : m.trend.st.2 = some s) (hcs : s.cps = [cs]) :
    ColumnModel m (unique y.times).length fun θ => form.Sites cs θ := by
  obtain ⟨⟨hcls, -, s', cs', hs', hcs', hser, hone⟩, hn', htr', hall⟩ := curves_fitted hS hmono hT hfit
  rw [hs] at hs'
  cases hs'
  rw [hcs] at hcs'
  cases hcs'
  obtain ⟨yT, x0, x', hyT, htf, hx0, hx, htd0, hfe, hdata0, hobjs, hya⟩ := uniFitData_ok hfit
  obtain ⟨x0', hx0', hx'⟩ := hT.features
  rw [hx0] at hx0'
  cases hx0'
  rw [hx] at hx'
  cases hx'
  have hnd : y.times.Nodup := by
    unfold Frame.times
    exact (List.pairwise_map.2 hT.sorted).imp fun h => h.ne
  rw [unique_of_nodup hnd] at htd0 ⊢
  obtain ⟨hob, -⟩ := transformEffects_get hn' hdata0 hobjs
  constructor
  · intro θ v hθ hv
    obtain ⟨f, h2⟩ := form_value hcls hS.squeeze hs hcs hser hone hθ hT.dates htd0
    rw [h2] at hv
    cases hv
    simp [columnOf]
  · intro q hq d hd θ p tr v hp hs hv
    rw [hob] at hq
    obtain ⟨fe, hk, rfl⟩ := List.mem_map.1 hq
    obtain ⟨hc, -, -⟩ := hall fe (List.mem_of_mem_filter hk)
    simp only at hv
    rw [hc] at hv
    cases hkk : kind fe.name <;> rw [hkk] at hv <;> exact addMul_column hp hs hv

/-- **C119**, with the effects of the library: such a forecaster can be fitted with every collection of lift
tests (flat tables with one column and distinct dates) of effects that have columns, and everything said about
tests applies to it. -/
theorem C119_works (hS : CurveSetup days form p mode kind cfg) (hmono : StrictMono days)
    (hT : CurveTraining cfg y c X x) (hv : form.Targets (trendTargets p cfg y c)) {sc : ℝ}
    (hsc : cfg.effectScale = .float sc) {tests : String → Option (LiftTest τ)}
    (hd : tests "exogenous_variables_effect" = none)
    (htab : ∀ n t, tests n = some t → t.table.nlevels = 1 ∧ (∃ a, t.table.cols = [a]) ∧ t.table.times.Nodup)
    (hcols : ∀ e ∈ cfg.effects, tests e.name ≠ none → matchColumns cfg.compile x.cols e.regex ≠ .ok []) :
    Testable tests cfg sc ∧ ∃ m m' s cs, uniFitData cfg y X = .ok m ∧
      uniFitData (withTests tests cfg) y X = .ok m' ∧ TestedColumns tests m' ∧
      m.trend.st.2 = some s ∧ s.cps = [cs] ∧
      ColumnModel m (unique y.times).length fun θ => form.Sites cs θ := by
  have hA : Testable tests cfg sc := by
    refine ⟨hsc, fun n t h => ⟨(htab n t h).1, (htab n t h).2.1⟩, hd, hS.names, hS.noDefault, hS.noTrend, ?_⟩
    intro e he _
    rw [hS.effects e he]
    cases kind e.name <;> rfl
  refine ⟨hA, ?_⟩
  obtain ⟨m, hm⟩ := C118_fits hS hmono hT hv
  obtain ⟨⟨-, -, s, cs, hs, hcs, -, -⟩, -, -, hall⟩ := curves_fitted hS hmono hT hm
  obtain ⟨yT, x0, x', hyT, htf, hx0, hx, htd0, hfe, hdata0, hobjs, hya⟩ := uniFitData_ok hm
  obtain ⟨x0', hx0', hx'⟩ := hT.features
  rw [hx0] at hx0'
  cases hx0'
  rw [hx] at hx'
  cases hx'
  obtain ⟨m', hm', hcol⟩ := uniFitData_add_tests (tests := tests) hsc hd hS.names hS.noDefault hS.noTrend hA.filter
    (fun n t h => ⟨(htab n t h).2.2, (htab n t h).1⟩) (X := X) (y := y) (by
      intro z hz
      rw [hx0] at hz
      cases hz
      have : x.nlevels = x0.nlevels := by
        unfold Frame.locTimes at hx
        split at hx
        · cases hx; rfl
        · cases hx
      rw [← this, hT.dates.flat]) hm (by
      intro fe hf ht
      rw [(hall fe hf).2.1]
      intro h
      have h0 : fe.cols = [] := by simpa using h
      obtain ⟨fes, hff, -, hcase⟩ := fitEffects_ok.1 hfe
      have key : ∀ fe ∈ fes, tests fe.name ≠ none → fe.cols ≠ [] := by
        intro fe hf ht h0
        obtain ⟨e, he, hne, hmc, -⟩ := exists_of_forall₂ hff hf
        refine hcols e he (hne ▸ ht) ?_
        rw [hmc, h0]
      rcases hcase with ⟨-, hF⟩ | ⟨eff, -, -, hF⟩
      · rw [hF] at hf
        exact key fe hf ht h0
      · rw [hF] at hf
        rcases List.mem_append.1 hf with hf | hf
        · exact key fe hf ht h0
        · cases List.mem_singleton.1 hf
          exact ht hd)
  exact ⟨m, m', s, cs, hm, hm', hcol, hs, hcs, curves_columns hS hmono hT hm hs hcs⟩

/-! Example: the Hill effect of `exCfg118` with one test on a training date and one outside. -/

noncomputable def exTest119 : LiftTest Int :=
  ⟨⟨1, ["lift"], [⟨[], 1, fun _ => some (1 / 2)⟩, ⟨[], 7, fun _ => some 3⟩]⟩, 1 / 10⟩

noncomputable def exTests119 (n : String) : Option (LiftTest Int) := if n = "ads" then some exTest119 else none

theorem exWorks119 (s : ℝ) : Testable (retest exTests119 "ads" s) (exCfg118 .linear (· = "a")) 1 ∧ ∃ m m' s₀ cs,
    uniFitData (exCfg118 .linear (· = "a")) exY85 (some exX118) = .ok m ∧
    uniFitData (withTests (retest exTests119 "ads" s) (exCfg118 .linear (· = "a"))) exY85 (some exX118) = .ok m' ∧
    TestedColumns (retest exTests119 "ads" s) m' ∧ m.trend.st.2 = some s₀ ∧ s₀.cps = [cs] ∧
    ColumnModel m (unique exY85.times).length fun θ => TrendForm.linear.Sites cs θ := by
  refine C119_works (form := .linear) (exSetup118 _ _) Int.cast_strictMono (exTraining118 _ _) trivial rfl
    (by simp [retest, exTests119]) ?_ ?_
  · intro n t h
    have : t = { exTest119 with priorScale := s } := by
      unfold retest exTests119 at h
      split at h
      · simpa using h.symm
      · cases h
    rw [this]
    exact ⟨rfl, ⟨_, rfl⟩, by simp [exTest119, Frame.times]⟩
  · intro e he _ h
    fin_cases he
    have := congrArg Except.toOption h
    simp [matchColumns, exCfg118, exX118, Except.toOption, bind, Except.bind, pure, Except.pure] at this

/-- Without priors a run is the computation of the mean. -/
theorem runMean_bare {D : Type} {trend : EffectCall D ℝ} {td : D} {data : PyDict D} {effects : PyDict (EffectCall D ℝ)}
    {θ : SiteEnv ℝ} {st : MeanState ℝ} (h : computeMean trend td data effects θ = .ok st) :
    runMean trend (fun _ _ _ => .ok []) td data effects (fun _ _ _ _ => .ok []) θ = .ok (st, []) := by
  unfold computeMean at h
  unfold runMean
  simp only [bind, Except.bind] at h ⊢
  cases ht : trend θ td [] with
  | error err => rw [ht] at h; cases h
  | ok t =>
    rw [ht] at h
    simp only at h ⊢
    generalize ({ mean := t, sites := [("trend", t)], predicted := [("trend", t)] } : MeanState ℝ) = s0 at h ⊢
    induction effects generalizing s0 with
    | nil => cases h; rfl
    | cons e l ih =>
      rw [List.foldlM_cons] at h ⊢
      simp only [bind, Except.bind] at h ⊢
      cases h1 : meanStep θ data s0 e with
      | error err => rw [h1] at h; cases h
      | ok s1 =>
        rw [h1] at h
        have hd : ∃ d, data.getItem e.1 = .ok d := by
          cases hd : data.getItem e.1 with
          | error err => simp [meanStep, hd, bind, Except.bind] at h1
          | ok d => exact ⟨d, rfl⟩
        obtain ⟨d, hd⟩ := hd
        have : runStep θ data (fun _ _ _ _ => .ok []) (s0, []) e = .ok (s1, []) := by
          simp [runStep, hd, h1, bind, Except.bind, pure, Except.pure]
        rw [this]
        exact ih s1 h

/-- The hypotheses of `C119_precision` are met, with tests of standard deviation 1/10 and 1. -/
example : ∃ m ms ms' n₀ t Ok, uniFitData (exCfg118 .linear (· = "a")) exY85 (some exX118) = .ok m ∧
    Testable exTests119 (exCfg118 .linear (· = "a")) 1 ∧ ColumnModel m (unique exY85.times).length Ok ∧
    n₀ ∈ m.objs.map Prod.fst ∧ exTests119 n₀ = some t ∧
    uniFitData (withTests (retest exTests119 n₀ (1 / 10)) (exCfg118 .linear (· = "a"))) exY85 (some exX118) = .ok ms ∧
    TestedColumns (retest exTests119 n₀ (1 / 10)) ms ∧
    uniFitData (withTests (retest exTests119 n₀ 1) (exCfg118 .linear (· = "a"))) exY85 (some exX118) = .ok ms' ∧
    TestedColumns (retest exTests119 n₀ 1) ms' ∧
    ∃ (P : SiteEnv ℝ → Prop) (θ : SiteEnv ℝ) (L L' : ℝ) (sites : PyDict (Tensor ℝ)), (∀ θ, P θ → Ok θ) ∧
    IsBest (testedDensity (retest exTests119 n₀ (1 / 10)) (exCfg118 .linear (· = "a")) (fun _ _ _ => .ok [])
      (fun _ _ _ _ => .ok []) .normal 1 1 ms) P θ L ∧
    IsBest (testedDensity (retest exTests119 n₀ 1) (exCfg118 .linear (· = "a")) (fun _ _ _ => .ok [])
      (fun _ _ _ _ => .ok []) .normal 1 1 ms') P θ L' ∧
    Records m θ sites := by
  obtain ⟨hA, m, ms, s, cs, hm, hms, hcs, hs, hcps, hC⟩ := exWorks119 (1 / 10)
  obtain ⟨hA', m1, ms', s1, cs1, hm1, hms', hcs', -, -, -⟩ := exWorks119 1
  rw [hm] at hm1
  cases hm1
  have hT : Testable exTests119 (exCfg118 .linear (· = "a")) 1 := by
    have : retest exTests119 "ads" (1 / 10) = exTests119 := by
      funext n
      unfold retest exTests119
      split <;> rfl
    rw [← this]
    exact hA
  have hone := exOne118 hm
  have hnames : ∀ fe ∈ kept m.fitted, (fe.name, fe.cols) = ("ads", ["a"]) ∨
      (fe.name, fe.cols) = ("exogenous_variables_effect", ["b"]) := by
    intro fe hfe
    have : (fe.name, fe.cols) ∈ (kept m.fitted).map fun fe => (fe.name, fe.cols) := List.mem_map_of_mem hfe
    rw [hone] at this
    simpa using this
  obtain ⟨yT, x0, x', hyT, htf, hx0, hx, htd0, hfe, hdata0, hobjs, hya⟩ := uniFitData_ok hm
  obtain ⟨x0', hx0', hx'⟩ := (exTraining118 .linear (· = "a")).features
  rw [hx0] at hx0'
  cases hx0'
  rw [hx] at hx'
  cases hx'
  have hu : unique exY85.times = exY85.times := unique_of_nodup (by simp [exY85, Frame.times])
  rw [hu] at htd0 hdata0
  obtain ⟨-, hn', -, -⟩ := curves_fitted (exSetup118 _ _) Int.cast_strictMono (exTraining118 _ _) hm
  obtain ⟨hob, -⟩ := transformEffects_get hn' hdata0 hobjs
  obtain ⟨st, hst, hsh, hwf⟩ := (curves_run (exSetup118 _ _) Int.cast_strictMono (exTraining118 _ _) hm hs hcps
    (by simp [exY85, Frame.times]) (exTraining118 .linear (· = "a")).dates htd0 hdata0 (θ := exθ118 cs)
    ⟨exSites118 _ _, fun fe hfe hl => by
      rcases hnames fe hfe with h | h
      · simp only [Prod.mk.injEq] at h
        rw [h.1] at hl
        simp [exKind118] at hl
      · simp only [Prod.mk.injEq] at h
        rw [h.1, h.2]
        rfl⟩).1 (by
    intro fe hfe
    right
    rcases hnames fe hfe with h | h <;> simp only [Prod.mk.injEq] at h <;> rw [h.2] <;> rfl)
  have hlen : m.yArray.length = st.mean.data.length := by
    have : st.mean.data.length = 3 := by simpa [WF, size, hsh, exY85, Frame.times] using hwf
    rw [this, hya]
    rfl
  obtain ⟨L, hL⟩ : ∃ L, fitDensity (fun _ _ _ => .ok []) (fun _ _ _ _ => .ok []) .normal 1 1 m (exθ118 cs) = .ok L :=
    logJoint_succeeds (runMean_bare hst) hlen rfl
  have hn : "ads" ∈ m.objs.map Prod.fst := by
    have : "ads" ∈ ((kept m.fitted).map fun fe => (fe.name, fe.cols)).map Prod.fst := by rw [hone]; simp
    rw [hob]
    simpa using this
  obtain ⟨ma, hma, ha⟩ := C119_terms hA hms hcs
  rw [hm] at hma
  cases hma
  obtain ⟨mb, hmb, hb⟩ := C119_terms hA' hms' hcs'
  rw [hm] at hmb
  cases hmb
  obtain ⟨L1, hL1⟩ := (ha _ hC _ _ .normal 1 1 (exθ118 cs) (exSites118 .linear cs)).2 L hL
  obtain ⟨L2, hL2⟩ := (hb _ hC _ _ .normal 1 1 (exθ118 cs) (exSites118 .linear cs)).2 L hL
  refine ⟨m, ms, ms', "ads", exTest119, _, hm, hT, hC, hn, by simp [exTests119], hms, hcs, hms', hcs',
    (· = exθ118 cs), exθ118 cs, L1, L2, st.sites, by rintro _ rfl; exact exSites118 .linear cs, ⟨rfl, hL1, ?_⟩,
    ⟨rfl, hL2, ?_⟩, ⟨st, hst, rfl⟩⟩
  · rintro _ L' rfl h
    rw [show testedDensity _ _ _ _ _ _ _ _ _ = _ from hL1] at h
    cases h
    exact le_refl _
  · rintro _ L' rfl h
    rw [show testedDensity _ _ _ _ _ _ _ _ _ = _ from hL2] at h
    cases h
    exact le_refl _

end

end PV
