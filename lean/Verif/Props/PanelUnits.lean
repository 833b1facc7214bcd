import Verif.Props.PanelMoved
import Verif.Props.Grouping
import Verif.Props.PanelPenalised

/-!
# C145: the units of the regressors of a panel
-/

set_option linter.unusedSectionVars false

namespace PV
open Tensor Matrix

section
variable {τ : Type} [LinearOrder τ] {days : τ → ℝ} {p : PiecewiseParams ℝ τ}
  {cfg : HierConfig (Option (PiecewiseState ℝ τ)) (Scale ℝ) τ (Tensor ℝ) ℝ} {mode : String → String}

/-- Specification: `X'` has the columns of `X` with every value of column `c` multiplied by `q c`. -/
structure InUnits (q : String → ℝ) (cols : List String) (ss : List (List String)) (ts : List τ)
    (X X' : Option (Frame String τ ℝ)) : Prop where
  values : ∀ a ∈ ss, ∀ t ∈ ts, ∀ c ∈ cols, givenValue X' a t c = q c * givenValue X a t c

/-- Specification: the columns an effect takes, or whose copies it takes, have the factor `g` of the effect. -/
def EffectUnits (q g : String → ℝ) (cols shared : List String) (ss : List (List String))
    (l : List (String × List String)) : Prop :=
  ∀ e ∈ l, ∀ d ∈ e.2, (d ∈ cols → d ∈ shared → q d = g e.1) ∧
    ∀ c ∈ cols, c ∉ shared → ∀ a ∈ ss, d = colName c a → q c = g e.1

/-- Specification: the coefficients of every effect divided by its factor, all else equal. -/
structure PanelUnits (g : String → ℝ) (θ θ' : SiteEnv ℝ) : Prop where
  offset : θ' "offset" = θ "offset"
  changepoints : θ' "changepoint_coefficients" = θ "changepoint_coefficients"
  coefs : ∀ n, (θ' (n ++ "/coefs")).data = (θ (n ++ "/coefs")).data.map (· / g n)
  std : θ' "std_observation" = θ "std_observation"
  corr : θ' "corr_matrix" = θ "corr_matrix"

open Classical in
/-- The parameters in the other units. -/
noncomputable def toUnits (g : String → ℝ) (θ : SiteEnv ℝ) : SiteEnv ℝ := fun k =>
  if h : ∃ n, k = n ++ "/coefs" then (θ k).map (· / g h.choose) else θ k

theorem toUnits_units (g : String → ℝ) (θ : SiteEnv ℝ) : PanelUnits g θ (toUnits g θ) := by
  have key : ∀ k : String, '/' ∉ k.toList → toUnits g θ k = θ k := by
    intro k hk
    unfold toUnits
    rw [dif_neg]
    rintro ⟨n, h⟩
    exact coefs_ne hk h.symm
  refine ⟨key _ (by decide), key _ (by decide), fun n => ?_, key _ (by decide), key _ (by decide)⟩
  have h : ∃ n', n ++ "/coefs" = n' ++ "/coefs" := ⟨n, rfl⟩
  unfold toUnits
  rw [dif_pos h, ← coefs_inj h.choose_spec]
  rfl

theorem toUnits_back {g : String → ℝ} (hg : ∀ n, g n ≠ 0) (θ : SiteEnv ℝ) :
    PanelUnits g (toUnits (fun n => (g n)⁻¹) θ) θ := by
  have h := toUnits_units (fun n => (g n)⁻¹) θ
  refine ⟨h.offset.symm, h.changepoints.symm, fun n => ?_, h.std.symm, h.corr.symm⟩
  rw [h.coefs n, List.map_map]
  conv_lhs => rw [← List.map_id (θ (n ++ "/coefs")).data]
  refine List.map_congr_left fun v _ => ?_
  have := hg n
  simp only [Function.comp_apply, id]
  field_simp

theorem dot_units {g : ℝ} (hg : g ≠ 0) {v w : String → ℝ} : ∀ (cs : List String) (l : List ℝ),
    (∀ d ∈ cs, w d = g * v d) → Tensor.dot (cs.map w) (l.map (· / g)) = Tensor.dot (cs.map v) l := by
  intro cs
  unfold Tensor.dot
  induction cs with
  | nil => simp
  | cons d cs ih =>
    intro l h
    cases l with
    | nil => simp
    | cons b l =>
      simp only [List.map_cons, List.zipWith_cons_cons, List.sum_cons]
      rw [ih l fun d hd => h d (List.mem_cons_of_mem _ hd), h d (List.mem_cons_self ..)]
      congr 1
      field_simp

theorem meanOf_units {g : String → ℝ} (hg : ∀ n, g n ≠ 0) {θ θ' : SiteEnv ℝ} (hθ : PanelUnits g θ θ')
    {lc : List (String × List String)} {v w : String → ℝ} (h : ∀ e ∈ lc, ∀ d ∈ e.2, w d = g e.1 * v d) (T : ℝ) :
    meanOf mode lc w θ' T = meanOf mode lc v θ T := by
  unfold meanOf
  congr 2
  refine List.map_congr_left fun e he => ?_
  rw [hθ.coefs, dot_units (hg _) _ _ (h e he)]

/-- What the columns of the model hold in the other units. -/
theorem units_val {q g : String → ℝ} {cols shared : List String} {ss : List (List String)}
    {ts : List τ} {X X' : Option (Frame String τ ℝ)} (hU : InUnits q cols ss ts X X') {lc : List (String × List String)}
    (hE : EffectUnits q g cols shared ss lc) (hmc : ∀ e ∈ lc, ∀ d ∈ e.2, ModelColumn cols shared ss d)
    {a : List String} (ha : a ∈ ss) {t : τ} (ht : t ∈ ts) {v w : String → ℝ} (hv : OwnCopies cols shared X ss a t v)
    (hw : OwnCopies cols shared X' ss a t w) : ∀ e ∈ lc, ∀ d ∈ e.2, w d = g e.1 * v d := by
  intro e he d hd
  rcases hmc e he d hd with ⟨h1, h2⟩ | ⟨c, hc, hs, b, hb, rfl⟩
  · rw [hw.shared d h1 h2, hv.shared d h1 h2, hU.values a ha t ht d h1, (hE e he d hd).1 h1 h2]
  · by_cases hba : b = a
    · subst hba
      rw [hw.own c hc hs, hv.own c hc hs, hU.values b ha t ht c hc, (hE e he _ hd).2 c hc hs b hb rfl]
    · rw [hw.other c hc hs b hb hba, hv.other c hc hs b hb hba, mul_zero]

/-- The table of regressors that a fit is based on holds its own copies. -/
theorem fitted_copies (hV : ValidHier days p cfg) {yA : Frame String τ ℝ} {ss : List (List String)} {ts : List τ}
    {X : Option (Frame String τ ℝ)} (hn : PlainNames cfg.compile (givenCols X) cfg.shared ss)
    {m : HierFit (Option (PiecewiseState ℝ τ)) (Scale ℝ) τ (Tensor ℝ) ℝ} {x : Frame String τ ℝ} {s : PiecewiseState ℝ τ}
    (h : HierFitted days p ss ts X m x s) (hex : hierExog cfg yA X = .ok (m.expand, x)) :
    ∀ a ∈ ss, ∀ t ∈ ts, OwnCopies (givenCols X) cfg.shared X ss a t (cellAt x a t) := by
  intro a ha t ht
  rcases h.exog with ⟨h0, -⟩ | ⟨X0, st0, rfl, hr, hst0, hsk, -, hxe⟩
  · rw [h0]
    exact ⟨by simp, by simp, by simp⟩
  · rw [hst0] at hex
    exact own_copies hn hsk (hier_matched hV hr hn hex) (fun _ h => h) hr hxe ha ht

variable (hV : ValidHier days p cfg) (hM : Modes mode cfg) {y : Frame String τ ℝ}
    (hy : RegularPanel y) {c : String} (hc : y.cols = [c]) {obs : List String → τ → ℝ} (hobs : Observed y c obs)
    {ss : List (List String)} (hss : SeriesOf y ss) (h2 : 2 ≤ ss.length) {ts : List τ} (hts : DatesOf y ts)
    (hp : p.priorScale.Fits ss.length) {X X' : Option (Frame String τ ℝ)} (hX : GivenExog X ss ts)
    (hX' : GivenExog X' ss ts) (hcols : givenCols X' = givenCols X)
    (hn : PlainNames cfg.compile (givenCols X) cfg.shared ss)
    {m m' : HierFit (Option (PiecewiseState ℝ τ)) (Scale ℝ) τ (Tensor ℝ) ℝ} (hfit : hierFitData cfg y X = .ok m)
    (hfit' : hierFitData cfg y X' = .ok m') {q g : String → ℝ} (hg : ∀ n, g n ≠ 0)

include hV hM hy hc hobs hss h2 hts hX hX' hcols hn hfit hfit' in
/-- What the two fits have in common. -/
theorem units_same : ∃ x x' s s', HierFitted days p ss ts X m x s ∧ HierFitted days p ss ts X' m' x' s' ∧
      hierExog cfg (aggregate cfg.keep y) X = .ok (m.expand, x) ∧
      hierExog cfg (aggregate cfg.keep y) X' = .ok (m'.expand, x') ∧
      s'.time = s.time ∧ s'.cps = s.cps ∧ s'.priorLoc = s.priorLoc ∧ s'.priorScale = s.priorScale ∧
      (s.offsetLoc.length = ss.length → s'.offsetLoc.length = ss.length → s'.offsetLoc = s.offsetLoc) ∧
      (kept m'.fitted).map nameCols = (kept m.fitted).map nameCols ∧
      ∀ e ∈ (kept m.fitted).map nameCols, ∀ d ∈ e.2, ModelColumn (givenCols X) cfg.shared ss d := by
  obtain ⟨x, x', s, s', h, h', hex, hex', htime, hcps, hloc, hscale, hoff, hkept⟩ :=
    hier_same hV hy hy hc hc hobs hobs hss hss hts hts hX hX' hcols hn.compiles hfit hfit'
  obtain ⟨s₂, -, hmc, -⟩ := C115_closed_form hV hM hy hss (.inl (by omega)) hts hX hn hfit
  refine ⟨x, x', s, s', h, h', hex, hex', htime, hcps, hloc, hscale, fun hl hl' => ?_, hkept, ?_⟩
  · refine List.ext_getElem? fun i => ?_
    by_cases hi : i < ss.length
    · rw [hoff i _ 1 0 (List.getElem?_eq_getElem hi) fun t _ => by ring]
      cases s.offsetLoc[i]? <;> simp
    · rw [List.getElem?_eq_none (by omega), List.getElem?_eq_none (by omega)]
  · intro e he d hd
    obtain ⟨fe, hfe, rfl⟩ := List.mem_map.1 he
    exact hmc fe ((hier_kept h).1 hfe).1 d hd

theorem panelTrend_units {s s' : PiecewiseState ℝ τ} {θ θ' : SiteEnv ℝ} (hθ : PanelUnits g θ θ')
    (htime : s'.time = s.time) (hcps : s'.cps = s.cps) (ss : List (List String)) (a : List String) (t : τ) :
    panelTrendAt days s' ss θ' a t = panelTrendAt days s ss θ a t := by
  unfold panelTrendAt seriesCoefs
  rw [htime, hcps, hθ.offset, hθ.changepoints]

include hV hM hy hc hobs hss h2 hts hp hX hX' hcols hn hfit hfit' hg in
/-- **C145**: in the other units, with priors of the coefficients in these units, the parameters in these units have the
posterior density of the parameters, up to a constant. -/
theorem C145_posterior (hU : InUnits q (givenCols X) ss ts X X')
    (hE : EffectUnits q g (givenCols X) cfg.shared ss ((kept m.fitted).map nameCols)) :
    ∃ s s', m.trend.st.2 = some s ∧ m'.trend.st.2 = some s' ∧
      ∀ (prior prior' : String → ℝ → ℝ) (k : String → ℝ), (∀ n v, prior' n (v / g n) = prior n v + k n) →
      ∃ K : ℝ, ∀ (lkj : Nat → ℝ → Tensor ℝ → ℝ) (ns conc os : ℝ) (θ θ' : SiteEnv ℝ), PanelUnits g θ θ' →
        (HierSizes s m θ → HierSizes s' m' θ') ∧ (HierSizes s' m' θ' → HierSizes s m θ) ∧
        ∀ (σ : Fin ss.length → ℝ) (C : Matrix (Fin ss.length) (Fin ss.length) ℝ), HierSizes s m θ → NoiseOf σ C θ →
        ∃ L, hierDensity lkj ns conc os prior m θ = .ok L ∧ hierDensity lkj ns conc os prior' m' θ' = .ok (L + K) := by
  obtain ⟨x, x', s, s', h, h', hex, hex', htime, hcps, hloc, hscale, hoff, hkept, hmc⟩ :=
    units_same hV hM hy hc hobs hss h2 hts hX hX' hcols hn hfit hfit'
  obtain ⟨x₁, s₁, hex₁, h₁, ho, -, hF⟩ := hier_posterior hV hM hy hc hobs hss h2 hts hp hX hn.compiles hfit
  obtain ⟨x₂, s₂, hex₂, h₂, ho', -, hF'⟩ := hier_posterior hV hM hy hc hobs hss h2 hts hp hX'
    (by rw [hcols]; exact hn.compiles) hfit'
  rw [hex] at hex₁
  obtain rfl : x = x₁ := congrArg Prod.snd (Except.ok.inj hex₁)
  rw [hex'] at hex₂
  obtain rfl : x' = x₂ := congrArg Prod.snd (Except.ok.inj hex₂)
  obtain rfl : s = s₁ := Option.some.inj (h.state.symm.trans h₁.state)
  obtain rfl : s' = s₂ := Option.some.inj (h'.state.symm.trans h₂.state)
  refine ⟨s, s', h.state, h'.state, ?_⟩
  intro prior prior' k hprior
  refine ⟨(((kept m.fitted).map nameCols).map fun e => (e.2.length : ℝ) * k e.1).sum, ?_⟩
  intro lkj ns conc os θ θ' hθ
  have hpartner : ∀ {l l' : List (FittedEffect (Option (PiecewiseState ℝ τ)) (Frame String τ ℝ) (Scale ℝ) τ ℝ (Tensor ℝ) ℝ)},
      l'.map nameCols = l.map nameCols → ∀ fe ∈ l', ∃ fe₀ ∈ l, fe₀.name = fe.name ∧ fe₀.cols = fe.cols := by
    intro l l' hl fe hfe
    obtain ⟨fe₀, h0, he⟩ := List.mem_map.1 (hl ▸ List.mem_map_of_mem hfe : nameCols fe ∈ l.map nameCols)
    exact ⟨fe₀, h0, congrArg Prod.fst he, congrArg Prod.snd he⟩
  have hsz : HierSizes s m θ → HierSizes s' m' θ' := by
    intro hz
    refine ⟨⟨?_, ?_⟩, ?_⟩
    · rw [hcps, hθ.offset, hz.trend.1]
    · rw [hcps, hθ.changepoints, hz.trend.2]
    · intro fe hfe hne
      obtain ⟨fe₀, h0, e1, e2⟩ := hpartner hkept fe ((hier_kept h').2 ⟨hfe, hne⟩)
      obtain ⟨q1, q2⟩ := (hier_kept h).1 h0
      rw [hθ.coefs, List.length_map, ← e1, ← e2]
      exact hz.coefs fe₀ q1 q2
  have hsz' : HierSizes s' m' θ' → HierSizes s m θ := by
    intro hz
    refine ⟨⟨?_, ?_⟩, ?_⟩
    · rw [← hcps, ← hθ.offset, hz.trend.1]
    · rw [← hcps, ← hθ.changepoints, hz.trend.2]
    · intro fe hfe hne
      obtain ⟨fe₀, h0, e1, e2⟩ := hpartner hkept.symm fe ((hier_kept h).2 ⟨hfe, hne⟩)
      obtain ⟨q1, q2⟩ := (hier_kept h').1 h0
      have := hz.coefs fe₀ q1 q2
      rw [hθ.coefs, List.length_map, e1, e2] at this
      exact this
  refine ⟨hsz, hsz', ?_⟩
  intro σ C hz hN
  refine ⟨_, hF lkj ns conc os prior θ σ C hz hN.size hN.levels hN.pos hN.matrix hN.factor, ?_⟩
  rw [hF' lkj ns conc os prior' θ' σ C (hsz hz) (by rw [hθ.std]; exact hN.size) (by rw [hθ.std]; exact hN.levels) hN.pos
    (by rw [hθ.corr]; exact hN.matrix) hN.factor]
  congr 1
  have key : ∀ (l : List (FittedEffect (Option (PiecewiseState ℝ τ)) (Frame String τ ℝ) (Scale ℝ) τ ℝ (Tensor ℝ) ℝ))
      (prior : String → ℝ → ℝ) (θ : SiteEnv ℝ), (l.map fun fe => ((θ (fe.name ++ "/coefs")).data.map (prior fe.name)).sum).sum
        = ((l.map nameCols).map fun q => ((θ (q.1 ++ "/coefs")).data.map (prior q.1)).sum).sum := by
    intro l prior θ
    rw [List.map_map]
    rfl
  have e1 : hierPrior os prior' s' (kept m'.fitted) θ' = hierPrior os prior s (kept m.fitted) θ
      + (((kept m.fitted).map nameCols).map fun e => (e.2.length : ℝ) * k e.1).sum := by
    unfold hierPrior
    rw [hoff ho ho', hθ.offset, hloc, hscale, hθ.changepoints, key, key, hkept, add_assoc (_ + _) _ (List.sum _),
      ← List.sum_map_add]
    congr 2
    refine List.map_congr_left fun e he => ?_
    obtain ⟨fe, hfe, rfl⟩ := List.mem_map.1 he
    obtain ⟨q1, q2⟩ := (hier_kept h).1 hfe
    have hl := hz.coefs fe q1 q2
    show ((θ' (fe.name ++ "/coefs")).data.map (prior' fe.name)).sum
      = ((θ (fe.name ++ "/coefs")).data.map (prior fe.name)).sum + (fe.cols.length : ℝ) * k fe.name
    rw [hθ.coefs, List.map_map, ← hl]
    have : ((prior' fe.name) ∘ fun v => v / g fe.name) = fun v => prior fe.name v + k fe.name :=
      funext fun v => hprior fe.name v
    rw [this, List.sum_map_add, List.map_const', List.sum_replicate, nsmul_eq_mul]
  have e2 : noisePart lkj ns conc ss.length θ' = noisePart lkj ns conc ss.length θ := by
    unfold noisePart
    rw [hθ.std, hθ.corr]
  have e3 : hierLik days mode s' ss ts (kept m'.fitted) x' obs σ C θ'
      = hierLik days mode s ss ts (kept m.fitted) x obs σ C θ := by
    unfold hierLik
    congr 1
    refine List.map_congr_left fun t ht => ?_
    congr 1
    funext i
    have ha : ss.get i ∈ ss := List.get_mem _ _
    have o' := fitted_copies hV (by rw [hcols]; exact hn) h' hex' _ ha t ht
    rw [hcols] at o'
    rw [panelMean_eq, panelMean_eq, panelTrend_units hθ htime hcps, hkept,
      meanOf_units hg hθ (units_val hU hE hmc ha ht (fitted_copies hV hn h hex _ ha t ht) o')]
  rw [e1, e2, e3]
  ring

include hV hM hy hc hobs hss h2 hts hp hX hX' hcols hn hfit hfit' hg in
/-- **C145**: the best fits in the other units are the best fits with the coefficients in the other units. -/
theorem C145_best (hU : InUnits q (givenCols X) ss ts X X')
    (hE : EffectUnits q g (givenCols X) cfg.shared ss ((kept m.fitted).map nameCols)) :
    ∃ s s', m.trend.st.2 = some s ∧ m'.trend.st.2 = some s' ∧
      ∀ (prior prior' : String → ℝ → ℝ) (k : String → ℝ), (∀ n v, prior' n (v / g n) = prior n v + k n) →
      ∀ (lkj : Nat → ℝ → Tensor ℝ → ℝ) (ns conc os : ℝ) (θ θ' : SiteEnv ℝ) (σ : Fin ss.length → ℝ)
        (C : Matrix (Fin ss.length) (Fin ss.length) ℝ), NoiseOf σ C θ → PanelUnits g θ θ' →
        (BestPanel lkj ns conc os prior s m θ ↔ BestPanel lkj ns conc os prior' s' m' θ') := by
  obtain ⟨s, s', hs, hs', hP⟩ := C145_posterior hV hM hy hc hobs hss h2 hts hp hX hX' hcols hn hfit hfit' hg hU hE
  refine ⟨s, s', hs, hs', fun prior prior' k hk lkj ns conc os θ θ' σ C hN hθ => ?_⟩
  obtain ⟨K, hK⟩ := hP prior prior' k hk
  obtain ⟨k1, k2, k3⟩ := hK lkj ns conc os θ θ' hθ
  have same : ∀ {ψ : SiteEnv ℝ}, ψ "std_observation" = θ "std_observation" → ψ "corr_matrix" = θ "corr_matrix" →
      NoiseOf σ C ψ := fun e1 e2 => ⟨by rw [e1]; exact hN.size, by rw [e1]; exact hN.levels, hN.pos,
        by rw [e2]; exact hN.matrix, hN.factor⟩
  constructor
  · rintro ⟨hz, l, hl, hmax⟩
    obtain ⟨L, hL, hL'⟩ := k3 σ C hz hN
    rw [hl] at hL
    cases hL
    refine ⟨k1 hz, _, hL', fun ψ' l' hψ' e1 e2 hl' => ?_⟩
    have hψ := toUnits_back hg ψ'
    obtain ⟨-, q2, q3⟩ := hK lkj ns conc os _ ψ' hψ
    have e1' := hψ.std.symm.trans (e1.trans hθ.std)
    have e2' := hψ.corr.symm.trans (e2.trans hθ.corr)
    obtain ⟨L, h1, h2⟩ := q3 σ C (q2 hψ') (same e1' e2')
    rw [hl'] at h2
    cases h2
    have := hmax _ _ (q2 hψ') e1' e2' h1
    linarith
  · rintro ⟨hz', l, hl, hmax⟩
    obtain ⟨L, hL, hL'⟩ := k3 σ C (k2 hz') hN
    rw [hl] at hL'
    cases hL'
    refine ⟨k2 hz', _, hL, fun ψ l' hψz e1 e2 hl' => ?_⟩
    have hψ := toUnits_units g ψ
    obtain ⟨q1, -, q3⟩ := hK lkj ns conc os ψ _ hψ
    obtain ⟨L', h1, h2⟩ := q3 σ C hψz (same e1 e2)
    rw [hl'] at h1
    cases h1
    have := hmax _ _ (q1 hψz) (hψ.std.trans (e1.trans hθ.std.symm)) (hψ.corr.trans (e2.trans hθ.corr.symm)) h2
    linarith

include hV hM hy hc hobs hss h2 hts hX hX' hcols hn hfit hfit' hg in
/-- **C145**: the forecasts are the same, for future values of the regressors in the respective units. -/
theorem C145_forecast (hE : EffectUnits q g (givenCols X) cfg.shared ss ((kept m.fitted).map nameCols)) :
    ∃ s, m.trend.st.2 = some s ∧ ∀ θ θ', HierSizes s m θ → PanelUnits g θ θ' →
      ∀ (y₁ y₁' : Frame String τ ℝ) (levels levels' : List (List String)) (X₁ X₁' : Option (Frame String τ ℝ))
        (fh : List τ), fh.Pairwise (· < ·) → GivenExog X₁ ss fh → GivenExog X₁' ss fh →
        (∀ d ∈ givenCols X, d ∈ givenCols X₁) → (∀ d ∈ givenCols X, d ∈ givenCols X₁') →
        InUnits q (givenCols X) ss fh X₁ X₁' →
      ∀ td data td' data', hierPredictData cfg m levels y₁ X₁ fh = .ok (td, data) →
        hierPredictData cfg m' levels' y₁' X₁' fh = .ok (td', data') →
      ∀ st st', computeMean (m.trend.cls.call m.trend.st) td data (callsOf m.objs) θ = .ok st →
        computeMean (m'.trend.cls.call m'.trend.st) td' data' (callsOf m'.objs) θ' = .ok st' →
      ∀ (i j : Nat) (a : List String) (t : τ), ss[i]? = some a → fh[j]? = some t →
        ∃ v, st.mean.get? [i, j, 0] = some v ∧ st'.mean.get? [i, j, 0] = some v := by
  obtain ⟨x, x', s, s', h, h', hex, hex', htime, hcps, -, -, -, hkept, hmc⟩ :=
    units_same hV hM hy hc hobs hss h2 hts hX hX' hcols hn hfit hfit'
  refine ⟨s, h.state, ?_⟩
  intro θ θ' hz hθ y₁ y₁' levels levels' X₁ X₁' fh hinc hX₁ hX₁' hsub hsub' hU td data td' data' hpd hpd' st st' hst hst'
    i j a t hi hj
  obtain ⟨s₂, hs₂, -, hF⟩ := C115_closed_form hV hM hy hss (.inl (by omega)) hts hX hn hfit
  obtain ⟨s₂', hs₂', -, hF'⟩ := C115_closed_form hV hM hy hss (.inl (by omega)) hts hX' (by rw [hcols]; exact hn) hfit'
  rw [h.state] at hs₂
  cases hs₂
  rw [h'.state] at hs₂'
  cases hs₂'
  obtain ⟨val, hv, hm⟩ := hF y₁ levels X₁ fh hinc hX₁ hsub td data hpd
  obtain ⟨val', hv', hm'⟩ := hF' y₁' levels' X₁' fh hinc hX₁' (by rw [hcols]; exact hsub') td' data' hpd'
  rw [hcols] at hv'
  have ha : a ∈ ss := List.mem_of_getElem? hi
  have ht : t ∈ fh := List.mem_of_getElem? hj
  have hz' : PanelSites s'.cps θ' := ⟨by rw [hcps, hθ.offset, hz.trend.1], by rw [hcps, hθ.changepoints, hz.trend.2]⟩
  have key : ∀ (l : List (FittedEffect (Option (PiecewiseState ℝ τ)) (Frame String τ ℝ) (Scale ℝ) τ ℝ (Tensor ℝ) ℝ))
      (val : String → ℝ) (θ : SiteEnv ℝ) (T : ℝ), T + (l.map fun fe => combine (mode fe.name) T
        (Tensor.dot (fe.cols.map val) (θ (fe.name ++ "/coefs")).data)).sum = meanOf mode (l.map nameCols) val θ T := by
    intro l val θ T
    unfold meanOf
    rw [List.map_map]
    rfl
  refine ⟨_, hm θ st hz.trend hst i j a t hi hj, ?_⟩
  rw [hm' θ' st' hz' hst' i j a t hi hj, key, key, hkept, panelTrend_units hθ htime hcps,
    meanOf_units hg hθ (units_val hU hE hmc ha ht (hv a ha t ht) (hv' a ha t ht))]

end

/-! ## Tables in other units -/

/-- The table with every column multiplied by its factor. -/
def Frame.scaleCols {τ : Type} (q : String → ℝ) (x : Frame String τ ℝ) : Frame String τ ℝ :=
  { x with rows := x.rows.map fun r => ⟨r.sid, r.time, fun c => q c * r.val c⟩ }

section
variable {τ : Type} [LinearOrder τ]

theorem scaleCols_bottom (q : String → ℝ) (x : Frame String τ ℝ) : (x.scaleCols q).bottomOnly = x.bottomOnly.scaleCols q := by
  unfold Frame.bottomOnly Frame.scaleCols
  simp only [List.filter_map]
  rfl

theorem scaleCols_panel {q : String → ℝ} {x : Frame String τ ℝ} {ss : List (List String)} {fh : List τ}
    (h : PanelIn x ss fh) : PanelIn (x.scaleCols q) ss fh where
  panel := h.panel
  someSeries := h.someSeries
  series := by
    intro i s
    rw [h.series]
    unfold SeriesAt Frame.scaleCols
    constructor
    · rintro ⟨k, row, h1, h2, h3, h4⟩
      refine ⟨k, ⟨row.sid, row.time, fun c => q c * row.val c⟩, by rw [List.getElem?_map, h1]; rfl, h2, ?_, ?_⟩
      · intro r hr
        rw [← List.map_take] at hr
        obtain ⟨r', hr', rfl⟩ := List.mem_map.1 hr
        exact h3 r' hr'
      · rw [← List.map_take, List.map_map]
        exact h4
    · rintro ⟨k, row, h1, h2, h3, h4⟩
      rw [List.getElem?_map] at h1
      obtain ⟨r', hr', rfl⟩ := Option.map_eq_some_iff.1 h1
      rw [← List.map_take] at h3 h4
      rw [List.map_map] at h4
      exact ⟨k, r', hr', h2, fun r hr => h3 ⟨r.sid, r.time, fun c => q c * r.val c⟩ (List.mem_map.2 ⟨r, hr, rfl⟩), h4⟩
  grouped := by
    intro i j k a b c hij hjk ha hb hc he
    simp only [Frame.scaleCols, List.getElem?_map, Option.map_eq_some_iff] at ha hb hc
    obtain ⟨a', ha, rfl⟩ := ha
    obtain ⟨b', hb, rfl⟩ := hb
    obtain ⟨c', hc, rfl⟩ := hc
    exact h.grouped i j k a' b' c' hij hjk ha hb hc he
  sorted := List.pairwise_map.2 h.sorted
  horizon := h.horizon
  someDate := h.someDate
  covers := by
    intro s hs t ht
    obtain ⟨r, hr, h1, h2⟩ := h.covers s hs t ht
    exact ⟨_, List.mem_map_of_mem hr, h1, h2⟩

/-- A table in other units is as good as the table. -/
theorem scaleCols_given {q : String → ℝ} {x : Frame String τ ℝ} {ss : List (List String)} {ts : List τ}
    (h : GivenExog (some x) ss ts) : GivenExog (some (x.scaleCols q)) ss ts := by
  rcases h with h | ⟨x', hx, h⟩
  · exact .inl h
  · cases hx
    refine .inr ⟨_, rfl, ⟨?_, h.levels, h.columns, ?_⟩⟩
    · intro r hr
      obtain ⟨r', hr', rfl⟩ := List.mem_map.1 hr
      exact h.wf r' hr'
    · rw [scaleCols_bottom]
      exact scaleCols_panel h.panel

theorem scaleCols_units (q : String → ℝ) (x : Frame String τ ℝ) (cols : List String) (ss : List (List String)) (ts : List τ) :
    InUnits q cols ss ts (some x) (some (x.scaleCols q)) where
  values := by
    intro a _ t _ c _
    show cellAt (x.scaleCols q) a t c = q c * cellAt x a t c
    unfold cellAt Frame.scaleCols
    simp only [List.find?_map]
    split
    · have : ((fun r : Row String τ ℝ => decide (r.sid = a ∧ r.time = t)) ∘
          fun r : Row String τ ℝ => (⟨r.sid, r.time, fun c => q c * r.val c⟩ : Row String τ ℝ))
          = fun r => decide (r.sid = a ∧ r.time = t) := rfl
      rw [this]
      cases x.rows.find? fun r => decide (r.sid = a ∧ r.time = t) <;> simp
    · simp

end

/-- The normal prior in the other unit. -/
theorem normalLP_factor {sd g : ℝ} (hs : 0 < sd) (hg : g ≠ 0) (v : ℝ) :
    normalLP 0 (sd / |g|) (v / g) = normalLP 0 sd v + Real.log |g| := by
  have h := normalLP_units (μ := 0) hs (abs_pos.2 hg) v
  rw [zero_div] at h
  rw [← h]
  unfold normalLP
  congr 3
  rw [sub_zero, sub_zero, div_pow, div_pow, div_pow, sq_abs]

/-! ## A case -/

/-- Money in cents instead of euros: a hundredth of the coefficients, with a hundredth of the prior scale, is the best fit. -/
example : ∃ m m' s s' θ θ', hierFitData exCfg114 exY113 (some exX113) = .ok m ∧
    hierFitData exCfg114 exY113 (some (exX113.scaleCols fun _ => 100)) = .ok m' ∧
    BestPanel (fun _ _ _ => 0) 1 1 (1 / 10) (fun _ => normalLP 0 1) s m θ ∧
    BestPanel (fun _ _ _ => 0) 1 1 (1 / 10) (fun _ => normalLP 0 (1 / |100|)) s' m' θ' ∧
    (θ' "e/coefs").data = (θ "e/coefs").data.map (· / 100) := by
  have hX := exExog113 (ts := [0, 1]) (by simp) (by simp) (by simp)
  have hX' := scaleCols_given (q := fun _ => 100) hX
  have k0 : MatrixSite ⟨[2, 2], [1, 0, 0, 1]⟩ (1 : Matrix (Fin 2) (Fin 2) ℝ) :=
    ⟨rfl, fun i j => by fin_cases i <;> fin_cases j <;> simp⟩
  have k1 : VectorSite (n := 2) ⟨[2], [1, 2]⟩ ![1, 2] := ⟨rfl, fun i => by fin_cases i <;> rfl⟩
  have k2 : ∀ i, (0 : ℝ) < ![1, 2] i := fun i => by fin_cases i <;> simp
  obtain ⟨m, s, h1, hs, h⟩ := C114_exists exValid114 exModes114 exPanel113 exSeries113 (by simp) exDates113
    (b := 1 / 10) rfl (by norm_num) hX exPlain115.compiles
  obtain ⟨m', h1'⟩ := C113_fits exValid114 exPanel113 exSeries113 exDates113 hX' exPlain115.compiles
  obtain ⟨θ, h2, h3, h4⟩ := h (fun _ _ _ => 0) 1 1 (1 / 10) (fun _ => normalLP 0 1) (by norm_num)
    (fun _ => continuous_normalLP 0 1) (fun _ => tendsto_normalLP 0 one_ne_zero) ⟨[2], [1, 2]⟩
    ⟨[2, 2], [1, 0, 0, 1]⟩ ![1, 2] 1 rfl k1 k2 k0 corrFactor_one
  have hN : NoiseOf (n := 2) ![1, 2] 1 θ := ⟨by rw [h2]; rfl, by rw [h2]; exact k1, k2, by rw [h3]; exact k0, corrFactor_one⟩
  have hobs : Observed exY113 "y" fun a t => cellAt exY113 a t "y" :=
    fun r hr _ => cellAt_of_mem exPanel113.ordered hr (by simp [exY113])
  obtain ⟨s₁, s', hs₁, hs', hb⟩ := C145_best (g := fun _ => 100) exValid114 exModes114 exPanel113 rfl hobs exSeries113
    (by simp) exDates113 trivial hX hX' rfl exPlain115 h1 h1' (fun _ => by norm_num)
    (scaleCols_units (fun _ => 100) _ _ _ _) (fun _ _ _ _ => ⟨fun _ _ => rfl, fun _ _ _ _ _ _ => rfl⟩)
  rw [hs] at hs₁
  cases hs₁
  have hθ := toUnits_units (fun _ => 100) θ
  exact ⟨m, m', s, s', θ, _, h1, h1', h4, (hb _ _ _ (fun _ => normalLP_factor one_pos (by norm_num)) _ 1 1 (1 / 10) θ _
    ![1, 2] 1 hN hθ).1 h4, hθ.coefs "e"⟩

end PV
