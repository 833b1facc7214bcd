import Verif.Lemmas.LiftEffect
import Verif.Props.PriorScale

/-!
# C119: what lift tests do to a fit

Wrapping effects of a forecaster in `LiftExperimentLikelihood` adds to the log density that is
maximised or sampled one normal term per test inside the training period, and nothing else.
More precise tests are matched more closely by the best fit.
-/

set_option linter.unusedSectionVars false

namespace PV
open Tensor

section
variable {S τ V D : Type} [LinearOrder τ] [Zero V]

/-- The lift measured at a date, if there was a test. -/
def LiftTest.measured (t : LiftTest τ) (date : τ) : Option ℝ :=
  (t.table.rows.find? fun r => r.time = date).bind fun r => r.val (t.table.cols.headD "")

/-- Effect and measured lift (in the units of the model) at every training date with a test, for an
effect with values `v`. -/
noncomputable def LiftTest.pairs (t : LiftTest τ) (scale : ℝ) (dates : List τ) (v : Tensor ℝ) : List (ℝ × ℝ) :=
  (dates.zip v.data).filterMap fun q => (t.measured q.1).map fun lift => (q.2, lift / scale)

/-- The tests of the effect called `n` in a run that recorded the contributions `sites`. -/
noncomputable def testsOf (tests : String → Option (LiftTest τ)) (scale : ℝ) (dates : List τ)
    (sites : PyDict (Tensor ℝ)) (n : String) : List (ℝ × ℝ) :=
  match tests n, sites.get? n with
  | some t, some v => t.pairs scale dates v
  | _, _ => []

/-- Log density of the tests of the effect called `n`. -/
noncomputable def testLog (tests : String → Option (LiftTest τ)) (scale : ℝ) (dates : List τ)
    (sites : PyDict (Tensor ℝ)) (n : String) : ℝ :=
  match tests n with
  | none => 0
  | some t => ((testsOf tests scale dates sites n).map fun q => normalLP q.1 t.priorScale q.2).sum

/-- Tables with one column and a flat index. -/
def TestTables (tests : String → Option (LiftTest τ)) : Prop :=
  ∀ n t, tests n = some t → t.table.nlevels = 1 ∧ ∃ c, t.table.cols = [c]

/-- Trend and effects are columns with one row per training date (`Ok`: the parameters have the sizes
of the model). -/
structure ColumnModel (m : UniFit S (Scale ℝ) τ V D ℝ) (N : Nat) (Ok : SiteEnv ℝ → Prop) : Prop where
  trend : ∀ θ v, Ok θ → m.trend.cls.call m.trend.st θ m.trendData [] = .ok v → v.shape = [N, 1]
  effects : ∀ q ∈ m.objs, ∀ d, m.data.get? q.1 = some d → ∀ θ p tr v, p.get? "trend" = some tr →
    tr.shape = [N, 1] → q.2.cls.call q.2.st θ d p = .ok v → v.shape = [N, 1] ∧ v.WF

theorem lift_observed {Y K : Type} [Field K] {l l' : Lift S Y τ V D K} {y : Y}
    {x0 : Frame String τ V} {x : Frame String τ V} {scale : K} {fh : List τ}
    {d : LiftData D K} {c : String} (hlv : l.table.nlevels = 1) (hc : l.table.cols = [c])
    (hfit : l.fit y (some x0) scale = .ok l') (hd : l'.transform (some x) fh = .ok d) :
    d.observed.shape = [fh.length, 1] ∧ d.observed.WF := by
  obtain ⟨xl, a, s, h1, h2, h3, h4⟩ := lift_transform_ok hd
  rw [(lift_fit_cols hfit).2.2.2.2.1] at h1
  unfold Frame.reindexTimes at h1
  split at h1
  · cases h1
    simp only [Frame.seriesToTensorOrArray, hlv, if_true] at h2
    cases h2
    rw [h4]
    simp [Tensor.map, Frame.flatVals, hc, WF, size, Function.comp_def]
  · cases h1

theorem find?_of_names {α : Type} (f : α → String) : ∀ {l : List α}, (l.map f).Nodup → ∀ {a}, a ∈ l →
    l.find? (fun e => decide (f e = f a)) = some a
  | [], _, a, h => by cases h
  | e :: l, hn, a, h => by
    rw [List.map_cons, List.nodup_cons] at hn
    rcases List.mem_cons.1 h with rfl | h
    · simp
    · have : f e ≠ f a := fun hc => hn.1 (hc ▸ List.mem_map_of_mem h)
      rw [List.find?_cons_of_neg (by simpa using this)]
      exact find?_of_names f hn.2 h

/-- One effect, with and without its tests. -/
theorem tested_step {sc : ℝ} {cfg : UniConfig S (Scale ℝ) τ V D ℝ} (hn : (cfg.effects.map EffectSpec.name).Nodup)
    {tests : String → Option (LiftTest τ)} (hT : TestTables tests) {y : Frame String τ ℝ}
    {m : UniFit S (Scale ℝ) τ V D ℝ} {m' : UniFit (S ⊕ LiftAttrs S ℝ) (Scale ℝ) τ V (D ⊕ LiftData D ℝ) ℝ}
    {Ok : SiteEnv ℝ → Prop} (hC : ColumnModel m (unique y.times).length Ok) (pr : String → Priors (Transformed D))
    {q q'} (hq : q ∈ m.objs) (hq' : m'.objs.get? q.1 = some q'.2)
    (hr : ObjRel cfg.effects tests y sc m.data m'.data q q') :
    ∃ d d', m.data.get? q.1 = some d ∧ m'.data.get? q.1 = some d' ∧
      ∀ θ p tr, p.get? "trend" = some tr → tr.shape = [(unique y.times).length, 1] →
      (∀ v ss', q'.2.cls.call q'.2.st θ d' p = .ok v → testPriors tests cfg pr m'.objs q.1 θ d' p = .ok ss' →
        q.2.cls.call q.2.st θ d p = .ok v ∧ ∃ ss, pr q.1 θ d p = .ok ss ∧
          logDensity ss' = logDensity ss + testLog tests sc (unique y.times) [(q.1, v)] q.1) ∧
      (∀ v ss, q.2.cls.call q.2.st θ d p = .ok v → pr q.1 θ d p = .ok ss →
        q'.2.cls.call q'.2.st θ d' p = .ok v ∧ ∃ ss', testPriors tests cfg pr m'.objs q.1 θ d' p = .ok ss') := by
  obtain ⟨h1, d, d', hd, hd', hcase⟩ := hr
  refine ⟨d, d', hd, hd', fun θ p tr hp htr => ?_⟩
  rcases hcase with ⟨ht, h2, rfl⟩ | ⟨t, e0, l', x, xc, dd, ht, he0, hne0, hl', h2, h3, htrans, rfl, rfl⟩
  · have hpr : testPriors tests cfg pr m'.objs q.1 = (pr q.1).embed plainEmb := by
      unfold testPriors
      rw [ht]
    rw [hpr, h2]
    constructor
    · intro v ss' hv hs
      rw [embed_call] at hv
      simp only [Priors.embed, Transformed.proj_inj] at hs
      exact ⟨hv, ss', hs, by simp [testLog, ht]⟩
    · intro v ss hv hs
      rw [embed_call]
      refine ⟨hv, ss, ?_⟩
      simp only [Priors.embed, Transformed.proj_inj]
      exact hs
  · obtain ⟨hb, hfi, hts, hin, htab, hps⟩ := lift_fit_cols hl'
    obtain ⟨hcls, hmade, -⟩ := effectFit_ok hin
    have hfind : cfg.effects.find? (fun e => decide (e.name = q.1)) = some e0 := by
      rw [← hne0]
      exact find?_of_names EffectSpec.name hn he0
    have hlat : (t.lift e0.effect.onFloat).at l'.base ⟨l'.inner.st, l'.tsScale⟩ = l' := by
      obtain ⟨⟨ic, im, is⟩, tb, ps, bs, ts⟩ := l'
      simp only at hcls hmade htab hps
      subst hcls hmade htab hps
      rfl
    have hpr : testPriors tests cfg pr m'.objs q.1 = (liftPriors l' (pr q.1)).embed liftEmb := by
      unfold testPriors
      rw [ht, hfind, hq', h3]
      simp only [Option.map_some, EffectObj.embed, EffectObj.ofFloat, Lift.obj, liftEmb]
      rw [hlat]
    obtain ⟨hlv, c, hc⟩ := hT _ _ ht
    obtain ⟨hos, how⟩ := lift_observed (l := t.lift e0.effect.clone.onFloat) hlv hc hl' htrans
    have hcall : ∀ θ p, q'.2.cls.call q'.2.st θ (.data (.inr dd)) p
        = (l'.predict θ dd p).map Prod.fst := by
      intro θ p
      rw [h3, show (Transformed.data (Sum.inr dd) : Transformed (D ⊕ LiftData D ℝ))
        = Transformed.inj liftEmb (.data dd) from rfl, embed_call]
      rfl
    have hpe : ∀ θ p, testPriors tests cfg pr m'.objs q.1 θ (.data (.inr dd)) p = l'.priors (pr q.1) θ dd p := by
      intro θ p
      rw [hpr]
      rfl
    rw [hpe, hcall]
    constructor
    · intro v ss' hv hs
      cases hpd : l'.predict θ dd p with
      | error err => rw [hpd] at hv; cases hv
      | ok r =>
        obtain ⟨v', terms⟩ := r
        rw [hpd] at hv
        cases hv
        have hval := C30_value hpd
        obtain ⟨hsh, hw⟩ := hC.effects q hq _ hd θ p tr v' hp htr (by show q.2.onFloat.cls.call q.2.onFloat.st θ _ p = _; rw [h2]; exact hval)
        have hterms := C30_terms (l := t.lift e0.effect.clone.onFloat) hlv hc hl' htrans hpd hsh hw
        obtain ⟨ss0, v2, pairs, h4, h5, h6⟩ := C85_lift_terms hs
        rw [hpd] at h5
        cases h5
        refine ⟨by show q.2.onFloat.cls.call q.2.onFloat.st θ _ p = _; rw [h2]; exact hval, ss0, h4, ?_⟩
        rw [h6, hterms, hps]
        simp [testLog, testsOf, ht, PyDict.get?, LiftTest.pairs, LiftTest.measured, LiftTest.lift, liftAt, hc]
    · intro v ss hv hs
      obtain ⟨hsh, hw⟩ := hC.effects q hq _ hd θ p tr v hp htr hv
      replace hv : l'.inner.cls.call l'.inner.st θ (.data dd.inner) p = .ok v := by rw [← h2]; exact hv
      have hpd : ∃ terms, l'.predict θ dd p = .ok (v, terms) := by
        unfold Lift.predict
        simp only [bind, Except.bind, hv]
        rw [@binop_same_eq ℝ (Option ℝ) _ _ ⟨none⟩ Prod.mk v dd.observed hw how (by rw [hsh, hos])]
        exact ⟨_, rfl⟩
      obtain ⟨terms, hpd⟩ := hpd
      refine ⟨by rw [hpd]; rfl, ?_⟩
      unfold Lift.priors
      simp only [bind, Except.bind, hs, hpd]
      unfold observeSite
      rw [if_pos (by simp)]
      exact ⟨_, rfl⟩


theorem runStep_eq {D : Type} {θ : SiteEnv ℝ} {data : PyDict D} {pr : String → Priors D} {st : MeanState ℝ}
    {acc : List Stmt} {e : String × EffectCall D ℝ} {d : D} (hd : data.get? e.1 = some d)
    {r : MeanState ℝ × List Stmt} : runStep θ data pr (st, acc) e = .ok r ↔
    ∃ ss v m, pr e.1 (θ.scope e.1) d st.predicted = .ok ss ∧ e.2 (θ.scope e.1) d st.predicted = .ok v ∧
      Tensor.binop (· + ·) st.mean v = .ok m ∧
      r = ({ mean := m, sites := st.sites.set e.1 v, predicted := st.predicted.set e.1 v },
        acc ++ ss.map (Stmt.scope e.1)) := by
  have hi : data.getItem e.1 = .ok d := PyDict.getItem_ok.2 hd
  simp only [runStep, meanStep, hi, bind, Except.bind]
  constructor
  · intro h
    split at h
    · cases h
    rename_i ss hs
    split at h
    · cases h
    rename_i m hm
    split at hm
    · cases hm
    rename_i v hv
    split at hm
    · cases hm
    rename_i mm hmm
    cases hm
    cases h
    exact ⟨ss, v, mm, hs, hv, hmm, rfl⟩
  · rintro ⟨ss, v, m, hs, hv, hm, rfl⟩
    simp only [hs, hv, hm]
    rfl

theorem sites_kept {D : Type} {θ : SiteEnv ℝ} {data : PyDict D} {pr : String → Priors D} {n : String} :
    ∀ {l : PyDict (EffectCall D ℝ)} {st : MeanState ℝ} {acc : List Stmt} {r : MeanState ℝ × List Stmt},
    n ∉ l.map Prod.fst → l.foldlM (runStep θ data pr) (st, acc) = .ok r → r.1.sites.get? n = st.sites.get? n
  | [], st, acc, r, _, h => by cases h; rfl
  | e :: l, st, acc, r, hn, h => by
    rw [List.map_cons, List.mem_cons, not_or] at hn
    rw [List.foldlM_cons] at h
    simp only [bind, Except.bind] at h
    cases h1 : runStep θ data pr (st, acc) e with
    | error err => rw [h1] at h; cases h
    | ok q =>
      rw [h1] at h
      have ih := sites_kept hn.2 h
      have hd : ∃ d, data.get? e.1 = some d := by
        cases hd : data.getItem e.1 with
        | error err => simp [runStep, hd, bind, Except.bind] at h1
        | ok d => exact ⟨d, PyDict.getItem_ok.1 hd⟩
      obtain ⟨d, hd⟩ := hd
      obtain ⟨ss, v, mm, -, -, -, rfl⟩ := (runStep_eq hd).1 h1
      rw [ih, PyDict.get?_set, if_neg (Ne.symm hn.1)]

theorem testLog_congr {tests : String → Option (LiftTest τ)} {sc : ℝ} {dates : List τ}
    {s s' : PyDict (Tensor ℝ)} {n : String} (h : s.get? n = s'.get? n) :
    testLog tests sc dates s n = testLog tests sc dates s' n := by
  unfold testLog testsOf
  rw [h]

/-- The loop over the effects, with and without tests. -/
theorem tested_fold {sc : ℝ} {cfg : UniConfig S (Scale ℝ) τ V D ℝ} (hn : (cfg.effects.map EffectSpec.name).Nodup)
    {tests : String → Option (LiftTest τ)} (hT : TestTables tests) {y : Frame String τ ℝ}
    {m : UniFit S (Scale ℝ) τ V D ℝ} {m' : UniFit (S ⊕ LiftAttrs S ℝ) (Scale ℝ) τ V (D ⊕ LiftData D ℝ) ℝ}
    {Ok : SiteEnv ℝ → Prop} (hC : ColumnModel m (unique y.times).length Ok) (pr : String → Priors (Transformed D))
    {θ : SiteEnv ℝ} {tr : Tensor ℝ} (htr : tr.shape = [(unique y.times).length, 1]) :
    ∀ {l l'}, List.Forall₂ (ObjRel cfg.effects tests y sc m.data m'.data) l l' →
    (∀ q ∈ l, q ∈ m.objs) → (∀ q ∈ l', m'.objs.get? q.1 = some q.2) →
    (l.map Prod.fst).Nodup → "trend" ∉ l.map Prod.fst →
    ∀ (st : MeanState ℝ) (acc acc' : List Stmt), st.predicted.get? "trend" = some tr →
    (∀ r', (callsOf l').foldlM (runStep θ m'.data (testPriors tests cfg pr m'.objs)) (st, acc') = .ok r' →
      ∃ r, (callsOf l).foldlM (runStep θ m.data pr) (st, acc) = .ok r ∧ r'.1 = r.1 ∧
        logDensity r'.2 - logDensity acc' = logDensity r.2 - logDensity acc
          + (l.map fun q => testLog tests sc (unique y.times) r.1.sites q.1).sum) ∧
    (∀ r, (callsOf l).foldlM (runStep θ m.data pr) (st, acc) = .ok r →
      ∃ r', (callsOf l').foldlM (runStep θ m'.data (testPriors tests cfg pr m'.objs)) (st, acc') = .ok r') := by
  intro l l' hrel
  induction hrel with
  | nil =>
    intro _ _ _ _ st acc acc' _
    exact ⟨fun r' h => ⟨(st, acc), rfl, by cases h; rfl, by cases h; simp⟩, fun r h => ⟨_, rfl⟩⟩
  | @cons q q' l l' hr hrel ih =>
    intro hm hm' hnd hnt st acc acc' hp
    rw [List.map_cons, List.nodup_cons] at hnd
    rw [List.map_cons, List.mem_cons, not_or] at hnt
    have hq1 : q'.1 = q.1 := hr.1
    obtain ⟨d, d', hd, hd', hstep⟩ := tested_step hn hT hC pr (hm q (by simp))
      (by rw [← hq1]; exact hm' q' (by simp)) hr
    obtain ⟨hA, hB⟩ := hstep (θ.scope q.1) st.predicted tr hp htr
    have ih := fun st acc acc' => ih (fun q hq => hm q (by simp [hq])) (fun q hq => hm' q (by simp [hq])) hnd.2 hnt.2 st acc acc'
    have hnl : q.1 ∉ (callsOf l).map Prod.fst := by
      simpa [callsOf, Function.comp_def] using hnd.1
    have e1 : callsOf (q :: l) = (q.1, q.2.cls.call q.2.st) :: callsOf l := rfl
    have e2 : callsOf (q' :: l') = (q.1, q'.2.cls.call q'.2.st) :: callsOf l' := by rw [← hq1]; rfl
    rw [e1, e2]
    simp only [List.foldlM_cons, bind, Except.bind]
    constructor
    · intro r' h
      cases h1 : runStep θ m'.data (testPriors tests cfg pr m'.objs) (st, acc') (q.1, q'.2.cls.call q'.2.st) with
      | error err => rw [h1] at h; cases h
      | ok r1 =>
        rw [h1] at h
        simp only at h
        obtain ⟨ss', v, mm, hs, hv, hmm, rfl⟩ := (runStep_eq (e := (q.1, q'.2.cls.call q'.2.st)) hd').1 h1
        obtain ⟨hcall, ss, hss, hld⟩ := hA v ss' hv hs
        have h2 : runStep θ m.data pr (st, acc) (q.1, q.2.cls.call q.2.st) = .ok _ :=
          (runStep_eq (e := (q.1, q.2.cls.call q.2.st)) hd).2 ⟨ss, v, mm, hss, hcall, hmm, rfl⟩
        rw [h2]
        simp only
        obtain ⟨r, h3, h4, h5⟩ := (ih _ (acc ++ ss.map (Stmt.scope q.1)) _ (by
          simp only [PyDict.get?_set]
          rw [if_neg (Ne.symm hnt.1)]
          exact hp)).1 r' h
        refine ⟨r, h3, h4, ?_⟩
        have hsite := sites_kept hnl h3
        simp only [PyDict.get?_set, if_true] at hsite
        rw [List.map_cons, List.sum_cons, testLog_congr (s' := [(q.1, v)]) (hsite.trans (by simp [PyDict.get?]))]
        rw [logDensity_append, logDensity_append, logDensity_scope, logDensity_scope, hld] at h5
        linarith
    · intro r h
      cases h1 : runStep θ m.data pr (st, acc) (q.1, q.2.cls.call q.2.st) with
      | error err => rw [h1] at h; cases h
      | ok r1 =>
        rw [h1] at h
        simp only at h
        obtain ⟨ss, v, mm, hs, hv, hmm, rfl⟩ := (runStep_eq (e := (q.1, q.2.cls.call q.2.st)) hd).1 h1
        obtain ⟨hcall, ss', hss'⟩ := hB v ss hv hs
        have h2 : runStep θ m'.data (testPriors tests cfg pr m'.objs) (st, acc') (q.1, q'.2.cls.call q'.2.st) = .ok _ :=
          (runStep_eq (e := (q.1, q'.2.cls.call q'.2.st)) hd').2 ⟨ss', v, mm, hss', hcall, hmm, rfl⟩
        rw [h2]
        simp only
        exact (ih _ _ _ (by
          simp only [PyDict.get?_set]
          rw [if_neg (Ne.symm hnt.1)]
          exact hp)).2 r h

theorem logJoint_eq_ok {D : Type} {lik : Likelihood} {ns scale : ℝ} {y : List ℝ} {trend : EffectCall D ℝ}
    {tp : Priors D} {td : D} {data : PyDict D} {effects : PyDict (EffectCall D ℝ)}
    {pr : String → Priors D} {θ : SiteEnv ℝ} {L : ℝ} :
    logJoint lik ns scale y trend tp td data effects pr θ = .ok L ↔
    ∃ r os, runMean trend tp td data effects pr θ = .ok r ∧ obsStmts lik ns scale y r.1.mean θ = .ok os ∧
      L = logDensity r.2 + logDensity os := by
  unfold logJoint modelStmts
  simp only [bind, Except.bind]
  constructor
  · intro h
    cases hr : runMean trend tp td data effects pr θ with
    | error err => rw [hr] at h; cases h
    | ok r =>
      rw [hr] at h
      simp only at h
      cases ho : obsStmts lik ns scale y r.1.mean θ with
      | error err => rw [ho] at h; cases h
      | ok os =>
        rw [ho] at h
        cases h
        exact ⟨r, os, rfl, ho, logDensity_append _ _⟩
  · rintro ⟨r, os, hr, ho, rfl⟩
    simp only [hr, ho, pure, Except.pure, Except.map, logDensity_append]

/-- The contributions recorded in a run of the model at parameters `θ`. -/
def Records {S D : Type} (m : UniFit S (Scale ℝ) τ V D ℝ) (θ : SiteEnv ℝ) (sites : PyDict (Tensor ℝ)) : Prop :=
  ∃ st, computeMean (m.trend.cls.call m.trend.st) m.trendData m.data (callsOf m.objs) θ = .ok st ∧ st.sites = sites

/-- What is assumed about a forecaster whose effects are tested: distinct names, none of them the name
of the trend or of the default effect; one-column tables; effects given the scale `sc` of the target; tests of effects that see the rows of the
forecasting horizon, as all effects of the library do. -/
structure Testable (tests : String → Option (LiftTest τ)) (cfg : UniConfig S (Scale ℝ) τ V D ℝ) (sc : ℝ) : Prop where
  scale : cfg.effectScale = .float sc
  tables : TestTables tests
  default : tests "exogenous_variables_effect" = none
  nodup : (cfg.effects.map EffectSpec.name).Nodup
  reserved : "exogenous_variables_effect" ∉ cfg.effects.map EffectSpec.name
  notTrend : "trend" ∉ cfg.effects.map EffectSpec.name
  filter : ∀ e ∈ cfg.effects, tests e.name ≠ none → e.effect.cls.tags.filterFh = true

/-- The tested effects have columns. -/
def TestedColumns {S D : Type} (tests : String → Option (LiftTest τ)) (m : UniFit S (Scale ℝ) τ V D ℝ) : Prop :=
  ∀ fe ∈ m.fitted, tests fe.name ≠ none → fe.effect.st.1.inputCols ≠ some []

/-- **C119**: a forecaster with lift tests can be fitted only if the forecaster without them can, and
for all parameters its log density is that of the forecaster without tests plus, for every tested
effect and every training date with a test, the normal log density of the measured lift (divided by
the scale of the target) around the contribution of the effect at that date, with standard deviation
`prior_scale`. -/
theorem C119_terms {tests : String → Option (LiftTest τ)} {cfg : UniConfig S (Scale ℝ) τ V D ℝ} {sc : ℝ} (hA : Testable tests cfg sc)
    {y : Frame String τ ℝ} {X : Option (Frame String τ V)}
    {m' : UniFit (S ⊕ LiftAttrs S ℝ) (Scale ℝ) τ V (D ⊕ LiftData D ℝ) ℝ}
    (hfit : uniFitData (withTests tests cfg) y X = .ok m') (hcol : TestedColumns tests m') :
    ∃ m, uniFitData cfg y X = .ok m ∧ ∀ Ok, ColumnModel m (unique y.times).length Ok →
      ∀ (tp : Priors (Transformed D)) (pr : String → Priors (Transformed D)) (lik : Likelihood) (ns scale : ℝ) (θ : SiteEnv ℝ),
      Ok θ →
      (∀ L', fitDensity (tp.embed plainEmb) (testPriors tests cfg pr m'.objs) lik ns scale m' θ = .ok L' →
        ∃ L sites, fitDensity tp pr lik ns scale m θ = .ok L ∧ Records m θ sites ∧
          L' = L + (m.objs.map fun q => testLog tests sc (unique y.times) sites q.1).sum) ∧
      (∀ L, fitDensity tp pr lik ns scale m θ = .ok L →
        ∃ L', fitDensity (tp.embed plainEmb) (testPriors tests cfg pr m'.objs) lik ns scale m' θ = .ok L') := by
  obtain ⟨m, hm, hR⟩ := uniFitData_tests hA.scale hA.default hA.nodup hA.reserved hA.notTrend hA.filter hfit hcol
  refine ⟨m, hm, fun Ok hC tp pr lik ns scale θ hok => ?_⟩
  have hkeys : m'.objs.map Prod.fst = m.objs.map Prod.fst := by
    have := hR.objs
    generalize m.objs = a at this
    generalize m'.objs = b at this
    induction this with
    | nil => rfl
    | cons h _ ih => simp [h.1, ih]
  have hget : ∀ q ∈ m'.objs, m'.objs.get? q.1 = some q.2 := fun q hq =>
    PyDict.get?_of_mem (by unfold PyDict.keys; rw [hkeys]; exact hR.names) hq
  have htp : (tp.embed plainEmb : Priors (Transformed (D ⊕ LiftData D ℝ))) θ m'.trendData [] = tp θ m.trendData [] := by
    simp only [Priors.embed, hR.trendData, Transformed.proj_inj]
  have htc : m'.trend.cls.call m'.trend.st θ m'.trendData [] = m.trend.cls.call m.trend.st θ m.trendData [] := by
    rw [hR.trend, hR.trendData, embed_call]
  have hnt : "trend" ∉ (callsOf m.objs).map Prod.fst := by
    simpa [callsOf, Function.comp_def] using hR.noTrend
  constructor
  · intro L' h
    obtain ⟨r', os, hr', hos, rfl⟩ := logJoint_eq_ok.1 h
    unfold runMean at hr'
    simp only [bind, Except.bind, htp, htc] at hr'
    cases ht : tp θ m.trendData [] with
    | error err => rw [ht] at hr'; cases hr'
    | ok ts =>
      rw [ht] at hr'
      simp only at hr'
      cases hv : m.trend.cls.call m.trend.st θ m.trendData [] with
      | error err => rw [hv] at hr'; cases hr'
      | ok t =>
        rw [hv] at hr'
        simp only at hr'
        obtain ⟨r, h1, h2, h3⟩ := (tested_fold hA.nodup hA.tables hC pr (hC.trend θ t hok hv) hR.objs (fun _ h => h) hget
          hR.names hR.noTrend _ ts ts (by simp [PyDict.get?])).1 r' hr'
        have hrun : runMean (m.trend.cls.call m.trend.st) tp m.trendData m.data (callsOf m.objs) pr θ = .ok r := by
          unfold runMean
          simp only [bind, Except.bind, ht, hv]
          exact h1
        obtain ⟨-, -, hcm, -⟩ := runMean_ok hnt hrun
        rw [hR.yArray, h2] at hos
        refine ⟨logDensity r.2 + logDensity os, r.1.sites, logJoint_eq_ok.2 ⟨r, os, hrun, hos, rfl⟩, ⟨r.1, hcm, rfl⟩, ?_⟩
        linarith
  · intro L h
    obtain ⟨r, os, hr, hos, rfl⟩ := logJoint_eq_ok.1 h
    unfold runMean at hr
    simp only [bind, Except.bind] at hr
    cases ht : tp θ m.trendData [] with
    | error err => rw [ht] at hr; cases hr
    | ok ts =>
      rw [ht] at hr
      simp only at hr
      cases hv : m.trend.cls.call m.trend.st θ m.trendData [] with
      | error err => rw [hv] at hr; cases hr
      | ok t =>
        rw [hv] at hr
        simp only at hr
        have hfold := tested_fold (θ := θ) hA.nodup hA.tables hC pr (hC.trend θ t hok hv) hR.objs (fun _ h => h) hget
          hR.names hR.noTrend { mean := t, sites := [("trend", t)], predicted := [("trend", t)] } ts ts (by simp [PyDict.get?])
        obtain ⟨r', hr'⟩ := hfold.2 r hr
        obtain ⟨r1, h1, h2, -⟩ := hfold.1 r' hr'
        rw [hr] at h1
        cases h1
        refine ⟨_, logJoint_eq_ok.2 ⟨r', os, ?_, ?_, rfl⟩⟩
        · unfold runMean
          simp only [bind, Except.bind, htp, htc, ht, hv]
          exact hr'
        · rw [hR.yArray, h2]
          exact hos

/-! ## Precision -/

/-- Every effect is recorded, as a column. -/
theorem records_column {m : UniFit S (Scale ℝ) τ V D ℝ} {N : Nat} {Ok : SiteEnv ℝ → Prop} (hC : ColumnModel m N Ok)
    (hn : (m.objs.map Prod.fst).Nodup) (hnt : "trend" ∉ m.objs.map Prod.fst) {θ : SiteEnv ℝ} (hok : Ok θ)
    {sites : PyDict (Tensor ℝ)} (h : Records m θ sites) :
    ∀ q ∈ m.objs, ∃ v, sites.get? q.1 = some v ∧ v.data.length = N := by
  obtain ⟨st, hst, rfl⟩ := h
  unfold computeMean at hst
  simp only [bind, Except.bind] at hst
  cases hv : m.trend.cls.call m.trend.st θ m.trendData [] with
  | error err => rw [hv] at hst; cases hst
  | ok t =>
    rw [hv] at hst
    simp only at hst
    have hts := hC.trend θ t hok hv
    have key : ∀ (l : PyDict (EffectObj S (Frame String τ ℝ) (Scale ℝ) τ V D ℝ)) (s0 : MeanState ℝ),
        (∀ q ∈ l, q ∈ m.objs) → (l.map Prod.fst).Nodup → "trend" ∉ l.map Prod.fst →
        s0.predicted.get? "trend" = some t → (callsOf l).foldlM (meanStep θ m.data) s0 = .ok st →
        (∀ n, n ∉ l.map Prod.fst → st.sites.get? n = s0.sites.get? n) ∧
        ∀ q ∈ l, ∃ v, st.sites.get? q.1 = some v ∧ v.data.length = N := by
      intro l
      induction l with
      | nil =>
        intro s0 _ _ _ _ h
        cases h
        exact ⟨fun _ _ => rfl, fun _ h => by cases h⟩
      | cons q l ih =>
        intro s0 hm hnd hnt hp h
        rw [List.map_cons, List.nodup_cons] at hnd
        rw [List.map_cons, List.mem_cons, not_or] at hnt
        rw [show callsOf (q :: l) = (q.1, q.2.cls.call q.2.st) :: callsOf l from rfl, List.foldlM_cons] at h
        simp only [bind, Except.bind] at h
        cases h1 : meanStep θ m.data s0 (q.1, q.2.cls.call q.2.st) with
        | error err => rw [h1] at h; cases h
        | ok s1 =>
          rw [h1] at h
          simp only at h
          unfold meanStep at h1
          simp only [bind, Except.bind] at h1
          cases hd : m.data.getItem q.1 with
          | error err => rw [hd] at h1; cases h1
          | ok d =>
            rw [hd] at h1
            simp only at h1
            cases hc : q.2.cls.call q.2.st (θ.scope q.1) d s0.predicted with
            | error err => rw [hc] at h1; cases h1
            | ok v =>
              rw [hc] at h1
              simp only at h1
              split at h1
              · cases h1
              cases h1
              obtain ⟨hs, hw⟩ := hC.effects q (hm q (by simp)) d (PyDict.getItem_ok.1 hd) _ _ t v hp hts hc
              obtain ⟨i1, i2⟩ := ih _ (fun q hq => hm q (by simp [hq])) hnd.2 hnt.2 (by
                simp only [PyDict.get?_set]
                rw [if_neg (Ne.symm hnt.1)]
                exact hp) h
              constructor
              · intro n hn
                rw [List.map_cons, List.mem_cons, not_or] at hn
                rw [i1 n hn.2]
                simp only [PyDict.get?_set]
                rw [if_neg (Ne.symm hn.1)]
              · intro q' hq'
                rcases List.mem_cons.1 hq' with rfl | hq'
                · refine ⟨v, ?_, ?_⟩
                  · rw [i1 _ hnd.1]
                    simp [PyDict.get?_set]
                  · simpa [WF, size, hs] using hw
                · exact i2 q' hq'
    exact (key m.objs _ (fun _ h => h) hn hnt (by simp [PyDict.get?]) hst).2

/-- The same tests with another `prior_scale` for those of the effect called `n₀`. -/
def retest (tests : String → Option (LiftTest τ)) (n₀ : String) (s : ℝ) (n : String) : Option (LiftTest τ) :=
  if n = n₀ then (tests n).map fun t => { t with priorScale := s } else tests n

/-- The tests without those of the effect called `n₀`. -/
def untested (tests : String → Option (LiftTest τ)) (n₀ : String) (n : String) : Option (LiftTest τ) :=
  if n = n₀ then none else tests n

/-- How far the contributions of the effect called `n` are from its tests: the sum of the squared
differences. -/
noncomputable def mismatch (tests : String → Option (LiftTest τ)) (scale : ℝ) (dates : List τ)
    (sites : PyDict (Tensor ℝ)) (n : String) : ℝ :=
  ((testsOf tests scale dates sites n).map fun q => (q.2 - q.1) ^ 2).sum

/-- The parameters `θ` are the best among those with `P`: none has a larger log density. -/
def IsBest (density : SiteEnv ℝ → PyM ℝ) (P : SiteEnv ℝ → Prop) (θ : SiteEnv ℝ) (L : ℝ) : Prop :=
  P θ ∧ density θ = .ok L ∧ ∀ θ' L', P θ' → density θ' = .ok L' → L' ≤ L

theorem sum_pairs (s : ℝ) : ∀ l : List (ℝ × ℝ), (l.map fun q => normalLP q.1 s q.2).sum
    = -(1 / (2 * s ^ 2) * (l.map fun q => (q.2 - q.1) ^ 2).sum)
      + l.length * (-Real.log s - Real.log (2 * Real.pi) / 2)
  | [] => by simp
  | a :: l => by
    rw [List.map_cons, List.sum_cons, sum_pairs s l, List.map_cons, List.sum_cons, List.length_cons]
    unfold normalLP
    push_cast
    ring

theorem pairs_length (t : LiftTest τ) (sc : ℝ) : ∀ (dates : List τ) (v : List ℝ), v.length = dates.length →
    ((dates.zip v).filterMap fun q => (t.measured q.1).map fun lift => (q.2, lift / sc)).length
      = (dates.filterMap t.measured).length
  | [], v, _ => by simp
  | d :: ds, [], h => by simp at h
  | d :: ds, a :: v, h => by
    have ih := pairs_length t sc ds v (by simpa using h)
    rw [List.zip_cons_cons, List.filterMap_cons, List.filterMap_cons]
    cases t.measured d <;> simp [ih]

variable {cfg : UniConfig S (Scale ℝ) τ V D ℝ} {sc : ℝ} {tests : String → Option (LiftTest τ)} {y : Frame String τ ℝ}
  {X : Option (Frame String τ V)} {m : UniFit S (Scale ℝ) τ V D ℝ}

theorem retest_ne {n₀ n : String} (h : n ≠ n₀) (s : ℝ) : retest tests n₀ s n = tests n := if_neg h

theorem untested_ne {n₀ n : String} (h : n ≠ n₀) : untested tests n₀ n = tests n := if_neg h

theorem retest_testable (hA : Testable tests cfg sc) (n₀ : String) (s : ℝ) : Testable (retest tests n₀ s) cfg sc where
  tables := by
    intro n t h
    unfold retest at h
    split at h
    · cases ht : tests n with
      | none => rw [ht] at h; cases h
      | some t' =>
        rw [ht] at h
        cases h
        exact hA.tables n t' ht
    · exact hA.tables n t h
  scale := hA.scale
  default := by
    unfold retest
    split
    · rw [hA.default]; rfl
    · exact hA.default
  nodup := hA.nodup
  reserved := hA.reserved
  notTrend := hA.notTrend
  filter := by
    intro e he h
    refine hA.filter e he fun hc => h ?_
    unfold retest
    rw [hc]
    split <;> rfl

theorem untested_testable (hA : Testable tests cfg sc) (n₀ : String) : Testable (untested tests n₀) cfg sc where
  tables := by
    intro n t h
    unfold untested at h
    split at h
    · cases h
    · exact hA.tables n t h
  scale := hA.scale
  default := by
    unfold untested
    split
    · rfl
    · exact hA.default
  nodup := hA.nodup
  reserved := hA.reserved
  notTrend := hA.notTrend
  filter := by
    intro e he h
    refine hA.filter e he fun hc => h ?_
    unfold untested
    rw [hc]
    split <;> rfl

/-- The log density of the forecaster with the given tests, after a fit that left `m'`. -/
noncomputable def testedDensity (tests : String → Option (LiftTest τ)) (cfg : UniConfig S (Scale ℝ) τ V D ℝ)
    (tp : Priors (Transformed D)) (pr : String → Priors (Transformed D)) (lik : Likelihood) (ns scale : ℝ)
    (m' : UniFit (S ⊕ LiftAttrs S ℝ) (Scale ℝ) τ V (D ⊕ LiftData D ℝ) ℝ) (θ : SiteEnv ℝ) : PyM ℝ :=
  fitDensity (tp.embed plainEmb) (testPriors tests cfg pr m'.objs) lik ns scale m' θ

theorem uniFitData_objs (hn : (cfg.effects.map EffectSpec.name).Nodup)
    (hres : "exogenous_variables_effect" ∉ cfg.effects.map EffectSpec.name)
    (hnt : "trend" ∉ cfg.effects.map EffectSpec.name) (hm : uniFitData cfg y X = .ok m) :
    (m.objs.map Prod.fst).Nodup ∧ "trend" ∉ m.objs.map Prod.fst := by
  obtain ⟨yT, x0, x, hyT, htf, hx0, hx, htd, hfe, hdata, hobjs, hya⟩ := uniFitData_ok hm
  obtain ⟨h1, h2⟩ := C17_names hn hres hnt hfe
  obtain ⟨hob, -⟩ := transformEffects_get h1 hdata hobjs
  rw [hob, List.map_map]
  exact ⟨h1.sublist (List.filter_sublist.map _), fun h => h2 ((List.filter_sublist.map _).subset h)⟩

/-- The density with and without the tests of one effect. -/
theorem tested_split (hA : Testable tests cfg sc) (hm : uniFitData cfg y X = .ok m) {Ok : SiteEnv ℝ → Prop}
    (hC : ColumnModel m (unique y.times).length Ok) {n₀ : String} (hn₀ : n₀ ∈ m.objs.map Prod.fst) {t : LiftTest τ}
    (ht : tests n₀ = some t) {tests' : String → Option (LiftTest τ)} (hA' : Testable tests' cfg sc)
    (hsame : ∀ n, n ≠ n₀ → tests' n = tests n) {m' : UniFit (S ⊕ LiftAttrs S ℝ) (Scale ℝ) τ V (D ⊕ LiftData D ℝ) ℝ}
    (hm' : uniFitData (withTests tests' cfg) y X = .ok m') (hcol : TestedColumns tests' m')
    (tp : Priors (Transformed D)) (pr : String → Priors (Transformed D)) (lik : Likelihood) (ns scale : ℝ) {θ : SiteEnv ℝ}
    (hok : Ok θ) :
    (∀ L', testedDensity tests' cfg tp pr lik ns scale m' θ = .ok L' →
      ∃ L sites, fitDensity tp pr lik ns scale m θ = .ok L ∧ Records m θ sites ∧
        L' = L + ((m.objs.filter fun q => q.1 ≠ n₀).map fun q =>
            testLog tests sc (unique y.times) sites q.1).sum
          + testLog tests' sc (unique y.times) sites n₀) ∧
    (∀ L, fitDensity tp pr lik ns scale m θ = .ok L →
      ∃ L', testedDensity tests' cfg tp pr lik ns scale m' θ = .ok L') := by
  obtain ⟨m1, hm1, h⟩ := C119_terms hA' hm' hcol
  rw [hm] at hm1
  cases hm1
  obtain ⟨h1, h2⟩ := h Ok hC tp pr lik ns scale θ hok
  refine ⟨fun L' hL' => ?_, h2⟩
  obtain ⟨L, sites, hL, hrec, rfl⟩ := h1 L' hL'
  refine ⟨L, sites, hL, hrec, ?_⟩
  obtain ⟨q, hq, rfl⟩ := List.mem_map.1 hn₀
  rw [sum_apart Prod.fst (fun q => testLog tests' sc (unique y.times) sites q.1) q
    (uniFitData_objs hA.nodup hA.reserved hA.notTrend hm).1 hq, ← add_assoc]
  congr 2
  refine congrArg List.sum (List.map_congr_left fun q' hq' => ?_)
  have hne : q'.1 ≠ q.1 := by simpa using (List.mem_filter.1 hq').2
  unfold testLog testsOf
  rw [hsame _ hne]

theorem records_unique {θ : SiteEnv ℝ} {s s' : PyDict (Tensor ℝ)} (h : Records m θ s) (h' : Records m θ s') : s = s' := by
  obtain ⟨st, h1, rfl⟩ := h
  obtain ⟨st', h2, rfl⟩ := h'
  rw [h1] at h2
  cases h2
  rfl

/-- From the density with some tests of one effect to that with others. -/
theorem tested_change (hA : Testable tests cfg sc) (hm : uniFitData cfg y X = .ok m) {Ok : SiteEnv ℝ → Prop}
    (hC : ColumnModel m (unique y.times).length Ok) {n₀ : String} (hn₀ : n₀ ∈ m.objs.map Prod.fst) {t : LiftTest τ}
    (ht : tests n₀ = some t) {tests₁ tests₂ : String → Option (LiftTest τ)} (hA₁ : Testable tests₁ cfg sc)
    (hA₂ : Testable tests₂ cfg sc) (hs₁ : ∀ n, n ≠ n₀ → tests₁ n = tests n) (hs₂ : ∀ n, n ≠ n₀ → tests₂ n = tests n)
    {m₁ m₂ : UniFit (S ⊕ LiftAttrs S ℝ) (Scale ℝ) τ V (D ⊕ LiftData D ℝ) ℝ}
    (hm₁ : uniFitData (withTests tests₁ cfg) y X = .ok m₁) (hc₁ : TestedColumns tests₁ m₁)
    (hm₂ : uniFitData (withTests tests₂ cfg) y X = .ok m₂) (hc₂ : TestedColumns tests₂ m₂)
    {tp : Priors (Transformed D)} {pr : String → Priors (Transformed D)} {lik : Likelihood} {ns scale : ℝ} {θ : SiteEnv ℝ}
    (hok : Ok θ) {L : ℝ} (hL : testedDensity tests₁ cfg tp pr lik ns scale m₁ θ = .ok L)
    {sites : PyDict (Tensor ℝ)} (hr : Records m θ sites) :
    ∃ L', testedDensity tests₂ cfg tp pr lik ns scale m₂ θ = .ok L' ∧
      L - testLog tests₁ sc (unique y.times) sites n₀
        = L' - testLog tests₂ sc (unique y.times) sites n₀ := by
  obtain ⟨L0, s0, hL0, hr0, h1⟩ := (tested_split hA hm hC hn₀ ht hA₁ hs₁ hm₁ hc₁ tp pr lik ns scale hok).1 L hL
  obtain ⟨h2, h3⟩ := tested_split hA hm hC hn₀ ht hA₂ hs₂ hm₂ hc₂ tp pr lik ns scale hok
  obtain ⟨L', hL'⟩ := h3 L0 hL0
  obtain ⟨L1, s1, hL1, hr1, h4⟩ := h2 L' hL'
  rw [hL0] at hL1
  cases hL1
  cases records_unique hr hr0
  cases records_unique hr hr1
  exact ⟨L', hL', by rw [h1, h4]; ring⟩

theorem testLog_untested (n₀ : String) (sc : ℝ) (dates : List τ) (sites : PyDict (Tensor ℝ)) :
    testLog (untested tests n₀) sc dates sites n₀ = 0 := by
  simp [testLog, untested]

/-- The terms of the tests of one effect: squared differences, weighted by the precision. -/
theorem testLog_retest (hA : Testable tests cfg sc) (hm : uniFitData cfg y X = .ok m) {Ok : SiteEnv ℝ → Prop}
    (hC : ColumnModel m (unique y.times).length Ok) {n₀ : String} (hn₀ : n₀ ∈ m.objs.map Prod.fst) {t : LiftTest τ}
    (ht : tests n₀ = some t) {θ : SiteEnv ℝ} (hok : Ok θ) {sites : PyDict (Tensor ℝ)} (hrec : Records m θ sites) (s : ℝ) :
    testLog (retest tests n₀ s) sc (unique y.times) sites n₀
      = -(1 / (2 * s ^ 2) * mismatch tests sc (unique y.times) sites n₀)
        + ((unique y.times).filterMap t.measured).length * (-Real.log s - Real.log (2 * Real.pi) / 2) := by
  obtain ⟨h1, h2⟩ := uniFitData_objs hA.nodup hA.reserved hA.notTrend hm
  obtain ⟨q, hq, rfl⟩ := List.mem_map.1 hn₀
  obtain ⟨v, hv, hlen⟩ := records_column hC h1 h2 hok hrec q hq
  have e1 : retest tests q.1 s q.1 = some { t with priorScale := s } := by simp [retest, ht]
  have e2 : testsOf (retest tests q.1 s) sc (unique y.times) sites q.1
      = testsOf tests sc (unique y.times) sites q.1 := by
    unfold testsOf
    rw [e1, ht, hv]
    rfl
  unfold testLog mismatch
  rw [e1]
  simp only [e2]
  rw [sum_pairs]
  congr 2
  unfold testsOf
  rw [ht, hv]
  simp only [LiftTest.pairs]
  rw [pairs_length t _ _ _ hlen]

/-- **C119**, precision: with a smaller `prior_scale` for the tests of an effect, the best fit is closer
to these tests, and fits everything else (target, priors, other tests) no better. -/
theorem C119_precision (hA : Testable tests cfg sc) (hm : uniFitData cfg y X = .ok m) {Ok : SiteEnv ℝ → Prop}
    (hC : ColumnModel m (unique y.times).length Ok) {n₀ : String} (hn₀ : n₀ ∈ m.objs.map Prod.fst) {t : LiftTest τ}
    (ht : tests n₀ = some t) {s s' : ℝ} (hs : 0 < s) (hss : s < s')
    {ms ms' : UniFit (S ⊕ LiftAttrs S ℝ) (Scale ℝ) τ V (D ⊕ LiftData D ℝ) ℝ}
    (hms : uniFitData (withTests (retest tests n₀ s) cfg) y X = .ok ms) (hcs : TestedColumns (retest tests n₀ s) ms)
    (hms' : uniFitData (withTests (retest tests n₀ s') cfg) y X = .ok ms') (hcs' : TestedColumns (retest tests n₀ s') ms')
    {tp : Priors (Transformed D)} {pr : String → Priors (Transformed D)} {lik : Likelihood} {ns scale : ℝ}
    {P : SiteEnv ℝ → Prop} (hP : ∀ θ, P θ → Ok θ) {θ θ' : SiteEnv ℝ} {L L' : ℝ}
    (hθ : IsBest (testedDensity (retest tests n₀ s) cfg tp pr lik ns scale ms) P θ L)
    (hθ' : IsBest (testedDensity (retest tests n₀ s') cfg tp pr lik ns scale ms') P θ' L')
    {sites sites' : PyDict (Tensor ℝ)} (hr : Records m θ sites) (hr' : Records m θ' sites') :
    mismatch tests sc (unique y.times) sites n₀
      ≤ mismatch tests sc (unique y.times) sites' n₀ ∧
    L - testLog (retest tests n₀ s) sc (unique y.times) sites n₀
      ≤ L' - testLog (retest tests n₀ s') sc (unique y.times) sites' n₀ := by
  have hA1 := retest_testable hA n₀ s
  have hA2 := retest_testable hA n₀ s'
  obtain ⟨hPθ, hL, hmax⟩ := hθ
  obtain ⟨hPθ', hL', hmax'⟩ := hθ'
  obtain ⟨L1, hL1, e1⟩ := tested_change hA hm hC hn₀ ht hA1 hA2 (fun n h => retest_ne h s) (fun n h => retest_ne h s')
    hms hcs hms' hcs' (hP θ hPθ) hL hr
  obtain ⟨L2, hL2, e2⟩ := tested_change hA hm hC hn₀ ht hA2 hA1 (fun n h => retest_ne h s') (fun n h => retest_ne h s)
    hms' hcs' hms hcs (hP θ' hPθ') hL' hr'
  have i1 := hmax θ' L2 hPθ' hL2
  have i2 := hmax' θ L1 hPθ hL1
  have t1 := testLog_retest hA hm hC hn₀ ht (hP θ hPθ) hr s
  have t2 := testLog_retest hA hm hC hn₀ ht (hP θ hPθ) hr s'
  have t3 := testLog_retest hA hm hC hn₀ ht (hP θ' hPθ') hr' s
  have t4 := testLog_retest hA hm hC hn₀ ht (hP θ' hPθ') hr' s'
  have hk : 1 / (2 * s' ^ 2) < 1 / (2 * s ^ 2) := by
    apply one_div_lt_one_div_of_lt (by positivity)
    nlinarith
  have := penalty_monotone (α := Bool)
    (R := fun b => cond b (L - testLog (retest tests n₀ s) sc (unique y.times) sites n₀)
      (L' - testLog (retest tests n₀ s') sc (unique y.times) sites' n₀))
    (g := fun b => cond b (mismatch tests sc (unique y.times) sites n₀)
      (mismatch tests sc (unique y.times) sites' n₀)) hk (by positivity) (a := true) (a' := false)
    (by simp only [cond_true, cond_false]; linarith) (by simp only [cond_true, cond_false]; linarith)
  simpa using this

/-- **C119**, the effect of testing: the best fit with tests of an effect is at least as close to them as
the best fit without, and fits everything else no better. -/
theorem C119_closer (hA : Testable tests cfg sc) (hm : uniFitData cfg y X = .ok m) {Ok : SiteEnv ℝ → Prop}
    (hC : ColumnModel m (unique y.times).length Ok) {n₀ : String} (hn₀ : n₀ ∈ m.objs.map Prod.fst) {t : LiftTest τ}
    (ht : tests n₀ = some t) {s : ℝ} (hs : 0 < s)
    {ms mu : UniFit (S ⊕ LiftAttrs S ℝ) (Scale ℝ) τ V (D ⊕ LiftData D ℝ) ℝ}
    (hms : uniFitData (withTests (retest tests n₀ s) cfg) y X = .ok ms) (hcs : TestedColumns (retest tests n₀ s) ms)
    (hmu : uniFitData (withTests (untested tests n₀) cfg) y X = .ok mu) (hcu : TestedColumns (untested tests n₀) mu)
    {tp : Priors (Transformed D)} {pr : String → Priors (Transformed D)} {lik : Likelihood} {ns scale : ℝ}
    {P : SiteEnv ℝ → Prop} (hP : ∀ θ, P θ → Ok θ) {θ θ' : SiteEnv ℝ} {L L' : ℝ}
    (hθ : IsBest (testedDensity (retest tests n₀ s) cfg tp pr lik ns scale ms) P θ L)
    (hθ' : IsBest (testedDensity (untested tests n₀) cfg tp pr lik ns scale mu) P θ' L')
    {sites sites' : PyDict (Tensor ℝ)} (hr : Records m θ sites) (hr' : Records m θ' sites') :
    mismatch tests sc (unique y.times) sites n₀
      ≤ mismatch tests sc (unique y.times) sites' n₀ ∧
    L - testLog (retest tests n₀ s) sc (unique y.times) sites n₀ ≤ L' := by
  have hA1 := retest_testable hA n₀ s
  have hA2 := untested_testable hA n₀
  obtain ⟨hPθ, hL, hmax⟩ := hθ
  obtain ⟨hPθ', hL', hmax'⟩ := hθ'
  obtain ⟨L1, hL1, e1⟩ := tested_change hA hm hC hn₀ ht hA1 hA2 (fun n h => retest_ne h s) (fun n h => untested_ne h)
    hms hcs hmu hcu (hP θ hPθ) hL hr
  obtain ⟨L2, hL2, e2⟩ := tested_change hA hm hC hn₀ ht hA2 hA1 (fun n h => untested_ne h) (fun n h => retest_ne h s)
    hmu hcu hms hcs (hP θ' hPθ') hL' hr'
  have i1 := hmax θ' L2 hPθ' hL2
  have i2 := hmax' θ L1 hPθ hL1
  have t1 := testLog_retest hA hm hC hn₀ ht (hP θ hPθ) hr s
  have t3 := testLog_retest hA hm hC hn₀ ht (hP θ' hPθ') hr' s
  rw [testLog_untested] at e1 e2
  have hk : 0 < 1 / (2 * s ^ 2) := by positivity
  refine ⟨?_, by linarith⟩
  refine le_of_mul_le_mul_left ?_ hk
  linarith

/-- **C119**, precise tests: for all parameters `ϑ` the model can take, the best fit with tests of standard
deviation `s` misses the tests by at most as much as `ϑ` does, plus `2 s²` times what `ϑ` loses elsewhere
compared to the best fit without these tests.  As `s` tends to zero the tests are met as closely as the
effect can meet them. -/
theorem C119_limit (hA : Testable tests cfg sc) (hm : uniFitData cfg y X = .ok m) {Ok : SiteEnv ℝ → Prop}
    (hC : ColumnModel m (unique y.times).length Ok) {n₀ : String} (hn₀ : n₀ ∈ m.objs.map Prod.fst) {t : LiftTest τ}
    (ht : tests n₀ = some t) {s : ℝ} (hs : 0 < s)
    {ms mu : UniFit (S ⊕ LiftAttrs S ℝ) (Scale ℝ) τ V (D ⊕ LiftData D ℝ) ℝ}
    (hms : uniFitData (withTests (retest tests n₀ s) cfg) y X = .ok ms) (hcs : TestedColumns (retest tests n₀ s) ms)
    (hmu : uniFitData (withTests (untested tests n₀) cfg) y X = .ok mu) (hcu : TestedColumns (untested tests n₀) mu)
    {tp : Priors (Transformed D)} {pr : String → Priors (Transformed D)} {lik : Likelihood} {ns scale : ℝ}
    {P : SiteEnv ℝ → Prop} (hP : ∀ θ, P θ → Ok θ) {θ θ' ϑ : SiteEnv ℝ} {L L' Lϑ : ℝ}
    (hθ : IsBest (testedDensity (retest tests n₀ s) cfg tp pr lik ns scale ms) P θ L)
    (hθ' : IsBest (testedDensity (untested tests n₀) cfg tp pr lik ns scale mu) P θ' L')
    (hϑ : P ϑ) (hLϑ : testedDensity (untested tests n₀) cfg tp pr lik ns scale mu ϑ = .ok Lϑ)
    {sites sitesϑ : PyDict (Tensor ℝ)} (hr : Records m θ sites) (hrϑ : Records m ϑ sitesϑ) :
    mismatch tests sc (unique y.times) sites n₀
      ≤ mismatch tests sc (unique y.times) sitesϑ n₀ + 2 * s ^ 2 * (L' - Lϑ) := by
  have hA1 := retest_testable hA n₀ s
  have hA2 := untested_testable hA n₀
  obtain ⟨hPθ, hL, hmax⟩ := hθ
  obtain ⟨hPθ', hL', hmax'⟩ := hθ'
  obtain ⟨L1, hL1, e1⟩ := tested_change hA hm hC hn₀ ht hA1 hA2 (fun n h => retest_ne h s) (fun n h => untested_ne h)
    hms hcs hmu hcu (hP θ hPθ) hL hr
  obtain ⟨L2, hL2, e2⟩ := tested_change hA hm hC hn₀ ht hA2 hA1 (fun n h => untested_ne h) (fun n h => retest_ne h s)
    hmu hcu hms hcs (hP ϑ hϑ) hLϑ hrϑ
  have i1 := hmax ϑ L2 hϑ hL2
  have i2 := hmax' θ L1 hPθ hL1
  have t1 := testLog_retest hA hm hC hn₀ ht (hP θ hPθ) hr s
  have t3 := testLog_retest hA hm hC hn₀ ht (hP ϑ hϑ) hrϑ s
  rw [testLog_untested] at e1 e2
  have hk : 0 < 1 / (2 * s ^ 2) := by positivity
  refine le_of_mul_le_mul_left ?_ hk
  rw [mul_add, show 1 / (2 * s ^ 2) * (2 * s ^ 2 * (L' - Lϑ)) = L' - Lϑ by field_simp]
  linarith

/-- **C119**, other dates: tests outside the training period do not change the log density. -/
theorem C119_outside {tests' : String → Option (LiftTest τ)} (hA : Testable tests cfg sc) (hA' : Testable tests' cfg sc)
    (hsame : ∀ n, (tests n).map LiftTest.priorScale = (tests' n).map LiftTest.priorScale ∧
      ∀ t t', tests n = some t → tests' n = some t' → ∀ date ∈ y.times, t.measured date = t'.measured date)
    {m₁ m₂ : UniFit (S ⊕ LiftAttrs S ℝ) (Scale ℝ) τ V (D ⊕ LiftData D ℝ) ℝ}
    (hm₁ : uniFitData (withTests tests cfg) y X = .ok m₁) (hc₁ : TestedColumns tests m₁)
    (hm₂ : uniFitData (withTests tests' cfg) y X = .ok m₂) (hc₂ : TestedColumns tests' m₂)
    (hm : uniFitData cfg y X = .ok m) {Ok : SiteEnv ℝ → Prop} (hC : ColumnModel m (unique y.times).length Ok)
    (tp : Priors (Transformed D)) (pr : String → Priors (Transformed D)) (lik : Likelihood) (ns scale : ℝ) {θ : SiteEnv ℝ}
    (hok : Ok θ) (L : ℝ) :
    testedDensity tests cfg tp pr lik ns scale m₁ θ = .ok L ↔ testedDensity tests' cfg tp pr lik ns scale m₂ θ = .ok L := by
  obtain ⟨m1, hm1, h1⟩ := C119_terms hA hm₁ hc₁
  obtain ⟨m2, hm2, h2⟩ := C119_terms hA' hm₂ hc₂
  rw [hm] at hm1 hm2
  cases hm1
  cases hm2
  obtain ⟨a1, a2⟩ := h1 Ok hC tp pr lik ns scale θ hok
  obtain ⟨b1, b2⟩ := h2 Ok hC tp pr lik ns scale θ hok
  have hlog : ∀ sites n, testLog tests sc (unique y.times) sites n
      = testLog tests' sc (unique y.times) sites n := by
    intro sites n
    obtain ⟨e1, e2⟩ := hsame n
    unfold testLog testsOf
    cases h : tests n with
    | none =>
      rw [h] at e1
      cases h' : tests' n with
      | none => rfl
      | some t' => rw [h'] at e1; cases e1
    | some t =>
      rw [h] at e1
      cases h' : tests' n with
      | none => rw [h'] at e1; cases e1
      | some t' =>
        rw [h'] at e1
        have e1 : t.priorScale = t'.priorScale := by simpa using e1
        have e2 := e2 t t' h h'
        simp only [e1]
        cases sites.get? n with
        | none => rfl
        | some v =>
          simp only
          have : t.pairs sc (unique y.times) v = t'.pairs sc (unique y.times) v := by
            unfold LiftTest.pairs
            refine List.filterMap_congr fun q hq => ?_
            rw [e2 q.1 (mem_unique.1 (List.of_mem_zip hq).1)]
          rw [this]
  constructor
  · intro h
    obtain ⟨L0, s0, hL0, hr0, rfl⟩ := a1 L h
    obtain ⟨L', hL'⟩ := b2 L0 hL0
    obtain ⟨L1, s1, hL1, hr1, e⟩ := b1 L' hL'
    rw [hL0] at hL1
    cases hL1
    cases records_unique hr0 hr1
    simp only [hlog]
    rw [← e]
    exact hL'
  · intro h
    obtain ⟨L0, s0, hL0, hr0, rfl⟩ := b1 L h
    obtain ⟨L', hL'⟩ := a2 L0 hL0
    obtain ⟨L1, s1, hL1, hr1, e⟩ := a1 L' hL'
    rw [hL0] at hL1
    cases hL1
    cases records_unique hr0 hr1
    simp only [← hlog]
    rw [← e]
    exact hL'

end
end PV
