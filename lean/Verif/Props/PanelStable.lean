import Mathlib.Tactic.FieldSimp
import Mathlib.Tactic.Ring
import Verif.Props.NearBest
import Verif.Props.PanelMoved
import Verif.Props.Detrend

/-!
# C133: changed observations move the fit of a panel by no more than they are changed

For given noise levels and correlation, the fitted values of all series and the offsets of their trends follow
changes of the histories in the same direction and by at most their size, both measured in the metric of the
inverse covariance of the series.
-/

set_option linter.unusedSectionVars false

namespace PV
open Tensor Filter Matrix

section
variable {τ : Type} [LinearOrder τ] {days : τ → ℝ} {p : PiecewiseParams ℝ τ}
  {cfg : HierConfig (Option (PiecewiseState ℝ τ)) (Scale ℝ) τ (Tensor ℝ) ℝ}

/-! ## Specification -/

/-- Two panels with the same series and dates. -/
structure TwoPanels (ss : List (List String)) (ts : List τ) (y y' : Frame String τ ℝ) (c c' : String)
    (obs obs' : List String → τ → ℝ) : Prop where
  panel : RegularPanel y
  panel' : RegularPanel y'
  column : y.cols = [c]
  column' : y'.cols = [c']
  observed : Observed y c obs
  observed' : Observed y' c' obs'
  series : SeriesOf y ss
  series' : SeriesOf y' ss
  dates : DatesOf y ts
  dates' : DatesOf y' ts

/-- What the changes from `A` to `A'` and from `B` to `B'` have in common, in the metric of the inverse
covariance. -/
noncomputable def weighedProduct {n : Nat} (V : Matrix (Fin n) (Fin n) ℝ) (ts : List τ) (A A' B B' : Fin n → τ → ℝ) : ℝ :=
  (ts.map fun t => (fun i => A' i t - A i t) ⬝ᵥ (V⁻¹ *ᵥ fun i => B' i t - B i t)).sum

/-! ## Algebra -/

theorem covariance_product {n : Nat} (σ : Fin n → ℝ) (C : Matrix (Fin n) (Fin n) ℝ) (d e : Fin n → ℝ) :
    d ⬝ᵥ ((panelCovariance σ C)⁻¹ *ᵥ e)
      = ((obsScaleTril σ C)⁻¹ *ᵥ d) ⬝ᵥ ((obsScaleTril σ C)⁻¹ *ᵥ e) := by
  rw [← panelCovariance_eq]
  set S := obsScaleTril σ C
  unfold mvnCovariance
  have h1 : (S * Sᵀ)⁻¹ = S⁻¹ᵀ * S⁻¹ := by
    rw [Matrix.mul_inv_rev, ← transpose_nonsing_inv]
  rw [h1, ← mulVec_mulVec, dotProduct_mulVec, vecMul_transpose]

theorem polar_form {n : Nat} (σ : Fin n → ℝ) (C : Matrix (Fin n) (Fin n) ℝ) (o o' a a' : Fin n → ℝ) :
    (fun i => o i - a' i) ⬝ᵥ ((panelCovariance σ C)⁻¹ *ᵥ fun i => o i - a' i)
      - (fun i => o' i - a' i) ⬝ᵥ ((panelCovariance σ C)⁻¹ *ᵥ fun i => o' i - a' i)
      - ((fun i => o i - a i) ⬝ᵥ ((panelCovariance σ C)⁻¹ *ᵥ fun i => o i - a i))
      + (fun i => o' i - a i) ⬝ᵥ ((panelCovariance σ C)⁻¹ *ᵥ fun i => o' i - a i)
    = 2 * ((fun i => o' i - o i) ⬝ᵥ ((panelCovariance σ C)⁻¹ *ᵥ fun i => a' i - a i)) := by
  simp only [covariance_product]
  set R := (obsScaleTril σ C)⁻¹
  have hs : ∀ f g : Fin n → ℝ, (R *ᵥ fun i => f i - g i) = R *ᵥ f - R *ᵥ g := fun f g => by
    rw [← mulVec_sub]
    rfl
  simp only [hs]
  simp only [dotProduct, Pi.sub_apply]
  rw [← Finset.sum_sub_distrib, ← Finset.sum_sub_distrib, ← Finset.sum_add_distrib, Finset.mul_sum]
  exact Finset.sum_congr rfl fun i _ => by ring

theorem polar_sum {n : Nat} (σ : Fin n → ℝ) (C : Matrix (Fin n) (Fin n) ℝ) (o o' A A' : Fin n → τ → ℝ) : ∀ ts : List τ,
    weighedError (panelCovariance σ C) ts o A' - weighedError (panelCovariance σ C) ts o' A'
      - weighedError (panelCovariance σ C) ts o A + weighedError (panelCovariance σ C) ts o' A
    = 2 * weighedProduct (panelCovariance σ C) ts o o' A A'
  | [] => by simp [weighedError, weighedProduct]
  | t :: ts => by
    have ih := polar_sum σ C o o' A A' ts
    have h := polar_form σ C (fun i => o i t) (fun i => o' i t) (fun i => A i t) (fun i => A' i t)
    unfold weighedError weighedProduct at ih ⊢
    simp only [List.map_cons, List.sum_cons]
    linarith

/-- Products are at most the mean of the squares. -/
theorem weighedProduct_le {n : Nat} (σ : Fin n → ℝ) (C : Matrix (Fin n) (Fin n) ℝ) (o o' A A' : Fin n → τ → ℝ)
    (ts : List τ) : 2 * weighedProduct (panelCovariance σ C) ts o o' A A'
      ≤ weighedError (panelCovariance σ C) ts o' o + weighedError (panelCovariance σ C) ts A' A := by
  induction ts with
  | nil => simp [weighedError, weighedProduct]
  | cons t ts ih =>
    have h : 2 * ((fun i => o' i t - o i t) ⬝ᵥ ((panelCovariance σ C)⁻¹ *ᵥ fun i => A' i t - A i t))
        ≤ (fun i => o' i t - o i t) ⬝ᵥ ((panelCovariance σ C)⁻¹ *ᵥ fun i => o' i t - o i t)
          + (fun i => A' i t - A i t) ⬝ᵥ ((panelCovariance σ C)⁻¹ *ᵥ fun i => A' i t - A i t) := by
      simp only [covariance_product]
      simp only [dotProduct]
      rw [Finset.mul_sum, ← Finset.sum_add_distrib]
      exact Finset.sum_le_sum fun i _ => by nlinarith [sq_nonneg (((obsScaleTril σ C)⁻¹ *ᵥ fun i => o' i t - o i t) i
        - ((obsScaleTril σ C)⁻¹ *ᵥ fun i => A' i t - A i t) i)]
    unfold weighedError weighedProduct at ih ⊢
    simp only [List.map_cons, List.sum_cons]
    linarith

theorem polar_offsets : ∀ (μ μ' o o' : List ℝ), μ'.length = μ.length → o.length = μ.length → o'.length = μ.length →
    (List.zipWith (fun μ o => (o - μ) ^ 2) μ o').sum - (List.zipWith (fun μ o => (o - μ) ^ 2) μ' o').sum
      - (List.zipWith (fun μ o => (o - μ) ^ 2) μ o).sum + (List.zipWith (fun μ o => (o - μ) ^ 2) μ' o).sum
    = 2 * ((List.range μ.length).map fun i => (μ'.getD i 0 - μ.getD i 0) * (o'.getD i 0 - o.getD i 0)).sum
  | [], [], [], [], _, _, _ => by simp
  | a :: μ, a' :: μ', b :: o, b' :: o', h, h1, h2 => by
    have ih := polar_offsets μ μ' o o' (by simpa using h) (by simpa using h1) (by simpa using h2)
    simp only [List.zipWith_cons_cons, List.sum_cons, List.length_cons, List.range_succ_eq_map, List.map_cons,
      List.map_map, List.getD_cons_zero]
    simp only [Function.comp_def, Nat.succ_eq_add_one, List.getD_cons_succ]
    linarith
  | [], _ :: _, _, _, h, _, _ => by simp at h
  | [], _, _ :: _, _, _, h, _ => by simp at h
  | [], _, _, _ :: _, _, _, h => by simp at h
  | _ :: _, [], _, _, h, _, _ => by simp at h
  | _ :: _, _, [], _, _, h, _ => by simp at h
  | _ :: _, _, _, [], _, _, h => by simp at h

theorem squaredDistance_range : ∀ (o o' : List ℝ), o'.length = o.length →
    squaredDistance o o' = ((List.range o.length).map fun i => (o'.getD i 0 - o.getD i 0) ^ 2).sum
  | [], [], _ => by simp [squaredDistance]
  | b :: o, b' :: o', h => by
    have ih := squaredDistance_range o o' (by simpa using h)
    unfold squaredDistance at ih ⊢
    simp only [List.zipWith_cons_cons, List.sum_cons, List.length_cons, List.range_succ_eq_map, List.map_cons,
      List.map_map, List.getD_cons_zero]
    simp only [Function.comp_def, Nat.succ_eq_add_one, List.getD_cons_succ]
    linarith
  | [], _ :: _, h => by simp at h
  | _ :: _, [], h => by simp at h

/-! ## The centres of the offsets -/

/-- The prior of the offset of a series is centred at its first observation. -/
theorem panel_first (hV : ValidHier days p cfg) (hp : p.detrend = none) {y : Frame String τ ℝ}
    (hy : RegularPanel y) {c : String} (hc : y.cols = [c]) {obs : List String → τ → ℝ} (hobs : Observed y c obs)
    {ss : List (List String)} (hss : SeriesOf y ss) {ts : List τ} (hts : DatesOf y ts)
    {X : Option (Frame String τ ℝ)} (hX : GivenExog X ss ts)
    (hcomp : ∀ c ∈ givenCols X, c ∉ cfg.shared → ∃ q, cfg.compile c = .ok q)
    {m : HierFit (Option (PiecewiseState ℝ τ)) (Scale ℝ) τ (Tensor ℝ) ℝ} (hfit : hierFitData cfg y X = .ok m)
    {s : PiecewiseState ℝ τ} (hs : m.trend.st.2 = some s) {t₀ : τ} (ht : ts.head? = some t₀) :
    s.offsetLoc = ss.map fun a => obs a t₀ := by
  obtain ⟨m', x, s', hfit', h, yB, hloc, hB, hser, hya, hsh, hw, hpf, hsing, hex, -⟩ := hier_fits hV hy hss hts hX hcomp
  rw [hfit] at hfit'
  cases hfit'
  have := h.state
  rw [hs] at this
  cases this
  have hcB : yB.cols = [c] := hB.cols.trans hc
  have hwB : yB.WF := fun r hr => by rw [hB.nlevels]; exact hy.wf r (hB.given r hr).1
  obtain ⟨h1, h2⟩ := C89_not_removed hp hpf hcB hwB (by
    rw [hB.dates]
    exact List.pairwise_map.2 (hts.sorted.imp fun h => hV.dates h))
  rw [hser] at h1 h2
  refine List.ext_getElem? fun i => ?_
  by_cases hi : i < ss.length
  · have ha : ss[i]? = some ss[i] := List.getElem?_eq_getElem hi
    obtain ⟨r, hr, hrs, hrt⟩ := hB.panel.covers ss[i] (by rw [hser]; exact List.getElem_mem hi) t₀ (List.mem_of_mem_head? ht)
    have hmem : r ∈ yB.rowsOf ss[i] := List.mem_filter.2 ⟨hr, by simp [hrs]⟩
    have hsort := rowsOf_sorted hB.panel.sorted ss[i]
    have hhead : (yB.rowsOf ss[i]).head? = some r := by
      cases hq : yB.rowsOf ss[i] with
      | nil => rw [hq] at hmem; cases hmem
      | cons r' rs =>
        rw [hq] at hmem hsort
        rcases List.mem_cons.1 hmem with rfl | hin
        · rfl
        · exfalso
          have hlt := List.rel_of_pairwise_cons hsort hin
          rw [hrt] at hlt
          have hr' : r'.time ∈ ts := by
            rw [← hB.dates, mem_unique]
            have : r' ∈ yB.rowsOf ss[i] := by rw [hq]; exact List.mem_cons_self ..
            exact List.mem_map.2 ⟨r', List.mem_of_mem_filter this, rfl⟩
          cases ts with
          | nil => cases ht
          | cons t₁ ts =>
            cases ht
            rcases List.mem_cons.1 hr' with e | e
            · exact absurd e hlt.ne
            · exact absurd (List.rel_of_pairwise_cons hts.sorted e) hlt.asymm
    rw [h2 i _ r ha hhead, List.getElem?_map, ha]
    have g := hB.given r hr
    rw [Option.map_some, ← hobs r g.1 g.2, hrs, hrt]
  · rw [List.getElem?_eq_none (by omega), List.getElem?_eq_none (by simp; omega)]

/-! ## The theorems -/

variable (hV : ValidHier days p cfg) (hM : Modes (fun _ => "additive") cfg)
    {ss : List (List String)} (h2 : 2 ≤ ss.length) {ts : List τ} {y y' : Frame String τ ℝ} {c c' : String}
    {obs obs' : List String → τ → ℝ} (H : TwoPanels ss ts y y' c c' obs obs')
    {b : ℝ} (hb : p.priorScale = .scalar b) (hb0 : 0 ≤ b) {X : Option (Frame String τ ℝ)} (hX : GivenExog X ss ts)
    (hcomp : ∀ c ∈ givenCols X, c ∉ cfg.shared → ∃ q, cfg.compile c = .ok q)
    {m m' : HierFit (Option (PiecewiseState ℝ τ)) (Scale ℝ) τ (Tensor ℝ) ℝ} (hfit : hierFitData cfg y X = .ok m)
    (hfit' : hierFitData cfg y' X = .ok m')
    {s s' : PiecewiseState ℝ τ} (hs : m.trend.st.2 = some s) (hs' : m'.trend.st.2 = some s')
    {x x' : Frame String τ ℝ} (hex : hierExog cfg (aggregate cfg.keep y) X = .ok (m.expand, x))
    (hex' : hierExog cfg (aggregate cfg.keep y') X = .ok (m'.expand, x'))
    {t₀ : τ} (ht : ts.head? = some t₀)
    {lkj : Nat → ℝ → Tensor ℝ → ℝ} {ns conc os : ℝ} {sd : String → ℝ}
    {σ : Fin ss.length → ℝ} {C : Matrix (Fin ss.length) (Fin ss.length) ℝ} {θ θ' : SiteEnv ℝ}
    (hN : NoiseOf σ C θ) (hθ : BestPanel lkj ns conc os (fun n => normalLP 0 (sd n)) s m θ)
    (hθ' : BestPanel lkj ns conc os (fun n => normalLP 0 (sd n)) s' m' θ')
    (e1 : θ' "std_observation" = θ "std_observation") (e2 : θ' "corr_matrix" = θ "corr_matrix")

include hV H hX hcomp hfit hfit' hs hs' hex hex' in
/-- Both fits have the same design. -/
theorem panel_same_design : s'.time = s.time ∧ s'.cps = s.cps ∧
    (kept m'.fitted).map nameCols = (kept m.fitted).map nameCols ∧
    (∀ θ, HierSizes s' m' θ ↔ HierSizes s m θ) ∧
    (∀ (mode : String → String) (θ : SiteEnv ℝ) a t, panelMean days mode s' ss (kept m'.fitted) x' θ a t
      = panelMean days mode s ss (kept m.fitted) x θ a t) ∧
    ∀ (f : String → ℝ), ((kept m'.fitted).map fun fe => f fe.name).sum = ((kept m.fitted).map fun fe => f fe.name).sum := by
  obtain ⟨x₁, x₂, s₁, s₂, h, h', hex₁, hex₂, htime, hcps, -, -, -, hkept⟩ :=
    hier_same hV H.panel H.panel' H.column H.column' H.observed H.observed' H.series H.series' H.dates H.dates'
      hX hX rfl hcomp hfit hfit'
  rw [hex] at hex₁
  cases Except.ok.inj hex₁
  rw [hex'] at hex₂
  cases Except.ok.inj hex₂
  obtain rfl : s₁ = s := Option.some.inj (h.state.symm.trans hs)
  obtain rfl : s₂ = s' := Option.some.inj (h'.state.symm.trans hs')
  have hx : (kept m.fitted).map nameCols = [] ∨ x' = x := by
    by_cases hg : givenCols X = []
    · left
      rw [List.map_eq_nil_iff]
      refine List.eq_nil_iff_forall_not_mem.2 fun fe hfe => ?_
      obtain ⟨h1, h2⟩ := (hier_kept h).1 hfe
      obtain ⟨q, hq⟩ := List.exists_mem_of_ne_nil _ h2
      have hx := (h.linear fe h1).2.2 q hq
      rcases h.exog with ⟨-, -, h0⟩ | ⟨X0, st, rfl, hr, -⟩
      · rw [h0] at hx
        cases hx
      · exact hr.columns hg
    · right
      rw [hierExog_given hg, hex] at hex'
      exact (congrArg Prod.snd (Except.ok.inj hex')).symm
  have htr : ∀ (F : String × List String → ℝ), ((kept m'.fitted).map fun fe => F (nameCols fe))
      = (kept m.fitted).map fun fe => F (nameCols fe) := by
    intro F
    have := congrArg (List.map F) hkept
    rwa [List.map_map, List.map_map] at this
  refine ⟨htime, hcps, hkept, fun θ => ?_, fun mode θ a t => ?_, fun f => ?_⟩
  · have hsz : ∀ {m : HierFit (Option (PiecewiseState ℝ τ)) (Scale ℝ) τ (Tensor ℝ) ℝ} {x : Frame String τ ℝ}
        {s : PiecewiseState ℝ τ} (_ : HierFitted days p ss ts X m x s),
        HierSizes s m θ ↔ PanelSites s.cps θ ∧
          ∀ q ∈ (kept m.fitted).map nameCols, (θ (q.1 ++ "/coefs")).data.length = q.2.length := by
      intro m x s h
      constructor
      · rintro ⟨g1, g2⟩
        refine ⟨g1, fun q hq => ?_⟩
        obtain ⟨fe, hfe, rfl⟩ := List.mem_map.1 hq
        obtain ⟨k1, k2⟩ := (hier_kept h).1 hfe
        exact g2 fe k1 k2
      · rintro ⟨g1, g2⟩
        exact ⟨g1, fun fe hfe hne => g2 _ (List.mem_map.2 ⟨fe, (hier_kept h).2 ⟨hfe, hne⟩, rfl⟩)⟩
    rw [hsz h, hsz h', hcps, hkept]
  · have htrend : panelTrendAt days s₂ ss θ a t = panelTrendAt days s₁ ss θ a t := by
      unfold panelTrendAt seriesCoefs
      rw [htime, hcps]
    unfold panelMean
    rw [htrend]
    congr 1
    have := htr fun q => combine (mode q.1) (panelTrendAt days s₁ ss θ a t)
      (dot (q.2.map (cellAt x' a t)) (θ (q.1 ++ "/coefs")).data)
    unfold nameCols at this
    simp only at this
    rw [this]
    rcases hx with h0 | rfl
    · rw [List.map_eq_nil_iff.1 h0]
      rfl
    · rfl
  · exact congrArg List.sum (htr fun q => f q.1)

include hV hM h2 H hb hb0 hX hcomp hfit hfit' hs hs' hex hex' hN hθ hθ' e1 e2

/-- **C133**: the fit of a panel follows the data.  The squares of the changes of the fitted values in the
metric of the inverse covariance, of the offsets over their prior scale and of the coefficients over theirs sum
to at most what the changes of the fitted values and of the offsets share with the changes of the
observations and of the centres of the offsets' priors. -/
theorem C133_centre {f f' : List String → ℝ} (hμ : s.offsetLoc = ss.map f)
    (hμ' : s'.offsetLoc = ss.map f') :
    weighedError (panelCovariance σ C) ts
        (fun i t => panelMean days (fun _ => "additive") s' ss (kept m'.fitted) x' θ' (ss.get i) t)
        (fun i t => panelMean days (fun _ => "additive") s ss (kept m.fitted) x θ (ss.get i) t)
      + squaredDistance (θ "offset").data (θ' "offset").data / os ^ 2
      + ((kept m.fitted).map fun fe =>
          squaredDistance (θ (fe.name ++ "/coefs")).data (θ' (fe.name ++ "/coefs")).data / sd fe.name ^ 2).sum
    ≤ weighedProduct (panelCovariance σ C) ts (fun i t => obs (ss.get i) t) (fun i t => obs' (ss.get i) t)
        (fun i t => panelMean days (fun _ => "additive") s ss (kept m.fitted) x θ (ss.get i) t)
        (fun i t => panelMean days (fun _ => "additive") s' ss (kept m'.fitted) x' θ' (ss.get i) t)
      + ((List.range ss.length).map fun i => (f' (ss.getD i []) - f (ss.getD i []))
          * ((θ' "offset").data.getD i 0 - (θ "offset").data.getD i 0)).sum / os ^ 2 := by
  obtain ⟨-, hcps, hkept, hsz, hmean, hsum⟩ := panel_same_design hV H hX hcomp hfit hfit' hs hs' hex hex'
  have hN' : NoiseOf σ C θ' := ⟨by rw [e1]; exact hN.size, by rw [e1]; exact hN.levels, hN.pos,
    by rw [e2]; exact hN.matrix, hN.factor⟩
  obtain ⟨h, ho, -⟩ := panel_facts hV hM H.panel H.column H.observed H.series h2 H.dates hb hX hcomp hfit hs hex
  obtain ⟨h', ho', -⟩ := panel_facts hV hM H.panel' H.column' H.observed' H.series' h2 H.dates' hb hX hcomp hfit' hs' hex'
  obtain ⟨K, hK⟩ := panel_penalised (lkj := lkj) (ns := ns) (conc := conc) (os := os) (sd := sd)
    hV hM H.panel H.column H.observed H.series h2 H.dates hb hX hcomp hfit hs hex hN
  obtain ⟨K', hK'⟩ := panel_penalised (lkj := lkj) (ns := ns) (conc := conc) (os := os) (sd := sd)
    hV hM H.panel' H.column' H.observed' H.series' h2 H.dates' hb hX hcomp hfit' hs' hex' hN'
  have z1 := (hsz θ').1 hθ'.1
  have z2 := (hsz θ).2 hθ.1
  have d1 := C132_panel hV hM H.panel H.column H.observed H.series h2 H.dates hb hb0 hX hcomp hfit hs hex hN hθ
    (hK θ hθ.1 rfl rfl) z1 e1 e2 (hK θ' z1 e1 e2)
  have d2 := C132_panel hV hM H.panel' H.column' H.observed' H.series' h2 H.dates' hb hb0 hX hcomp hfit' hs' hex' hN' hθ'
    (hK' θ' hθ'.1 rfl rfl) z2 e1.symm e2.symm (hK' θ z2 e1.symm e2.symm)
  simp only [hmean] at d2 ⊢
  have l1 : (θ "offset").data.length = ss.length := by rw [hθ.1.trend.1, h.changepoints]
  have l2 : (θ' "offset").data.length = ss.length := by rw [z1.trend.1, h.changepoints]
  have po := polar_offsets s.offsetLoc s'.offsetLoc (θ "offset").data (θ' "offset").data (by rw [ho, ho']) (by rw [l1, ho])
    (by rw [l2, ho])
  have pw := polar_sum σ C (fun i t => obs (ss.get i) t) (fun i t => obs' (ss.get i) t)
    (fun i t => panelMean days (fun _ => "additive") s ss (kept m.fitted) x θ (ss.get i) t)
    (fun i t => panelMean days (fun _ => "additive") s ss (kept m.fitted) x θ' (ss.get i) t) ts
  have hr : ((List.range s.offsetLoc.length).map fun i => (s'.offsetLoc.getD i 0 - s.offsetLoc.getD i 0)
        * ((θ' "offset").data.getD i 0 - (θ "offset").data.getD i 0)).sum
      = ((List.range ss.length).map fun i => (f' (ss.getD i []) - f (ss.getD i []))
          * ((θ' "offset").data.getD i 0 - (θ "offset").data.getD i 0)).sum := by
    rw [ho]
    refine congrArg List.sum (List.map_congr_left fun i hi => ?_)
    have hi := List.mem_range.1 hi
    rw [hμ, hμ']
    simp [List.getD_eq_getElem?_getD, hi]
  rw [hr] at po
  have swap1 : weighedError (panelCovariance σ C) ts
        (fun i t => panelMean days (fun _ => "additive") s ss (kept m.fitted) x θ (ss.get i) t)
        (fun i t => panelMean days (fun _ => "additive") s ss (kept m.fitted) x θ' (ss.get i) t)
      = weighedError (panelCovariance σ C) ts
        (fun i t => panelMean days (fun _ => "additive") s ss (kept m.fitted) x θ' (ss.get i) t)
        (fun i t => panelMean days (fun _ => "additive") s ss (kept m.fitted) x θ (ss.get i) t) := by
    unfold weighedError
    refine congrArg List.sum (List.map_congr_left fun t _ => ?_)
    rw [covariance_form, covariance_form]
    have : (fun i => panelMean days (fun _ => "additive") s ss (kept m.fitted) x θ (ss.get i) t
          - panelMean days (fun _ => "additive") s ss (kept m.fitted) x θ' (ss.get i) t)
        = -fun i => panelMean days (fun _ => "additive") s ss (kept m.fitted) x θ' (ss.get i) t
          - panelMean days (fun _ => "additive") s ss (kept m.fitted) x θ (ss.get i) t := by
      funext i
      simp
    rw [this, mulVec_neg, neg_dotProduct_neg]
  have swap2 : ∀ l l' : List ℝ, squaredDistance l' l = squaredDistance l l' := by
    intro l l'
    unfold squaredDistance
    rw [List.zipWith_comm]
    congr 2
    funext a b
    ring
  have hc1 : ((kept m'.fitted).map fun fe =>
          squaredDistance (θ' (fe.name ++ "/coefs")).data (θ (fe.name ++ "/coefs")).data / sd fe.name ^ 2).sum
      = ((kept m.fitted).map fun fe =>
          squaredDistance (θ (fe.name ++ "/coefs")).data (θ' (fe.name ++ "/coefs")).data / sd fe.name ^ 2).sum := by
    rw [hsum fun n => squaredDistance (θ' (n ++ "/coefs")).data (θ (n ++ "/coefs")).data / sd n ^ 2]
    simp only [swap2]
  rw [swap1, swap2, hc1] at d2
  have hp : ∀ ψ : SiteEnv ℝ, ((kept m'.fitted).map fun fe =>
        ((ψ (fe.name ++ "/coefs")).data.map fun v => v ^ 2).sum / sd fe.name ^ 2).sum
      = ((kept m.fitted).map fun fe =>
        ((ψ (fe.name ++ "/coefs")).data.map fun v => v ^ 2).sum / sd fe.name ^ 2).sum := fun ψ =>
    hsum fun n => ((ψ (n ++ "/coefs")).data.map fun v => v ^ 2).sum / sd n ^ 2
  unfold panelPrice at d1 d2
  rw [hp, hp] at d2
  have po' := congrArg (· / os ^ 2) po
  simp only [add_div, sub_div, mul_div_assoc] at po'
  linarith

/-- **C133**: hence no large movement of the fit comes from small movements of the data: with all changes squared
and weighed, the fitted values and offsets change by no more than the observations and the centres of the offsets' priors. -/
theorem C133_centre_lipschitz {f f' : List String → ℝ} (hμ : s.offsetLoc = ss.map f)
    (hμ' : s'.offsetLoc = ss.map f') :
    weighedError (panelCovariance σ C) ts
        (fun i t => panelMean days (fun _ => "additive") s' ss (kept m'.fitted) x' θ' (ss.get i) t)
        (fun i t => panelMean days (fun _ => "additive") s ss (kept m.fitted) x θ (ss.get i) t)
      + squaredDistance (θ "offset").data (θ' "offset").data / os ^ 2
      + 2 * ((kept m.fitted).map fun fe =>
          squaredDistance (θ (fe.name ++ "/coefs")).data (θ' (fe.name ++ "/coefs")).data / sd fe.name ^ 2).sum
    ≤ weighedError (panelCovariance σ C) ts (fun i t => obs' (ss.get i) t) (fun i t => obs (ss.get i) t)
      + (ss.map fun a => (f' a - f a) ^ 2).sum / os ^ 2 := by
  have h := C133_centre hV hM h2 H hb hb0 hX hcomp hfit hfit' hs hs' hex hex' hN hθ hθ' e1 e2 hμ hμ'
  obtain ⟨-, hcps, -, hsz, -, -⟩ := panel_same_design hV H hX hcomp hfit hfit' hs hs' hex hex'
  obtain ⟨hF, -⟩ := panel_facts hV hM H.panel H.column H.observed H.series h2 H.dates hb hX hcomp hfit hs hex
  have l1 : (θ "offset").data.length = ss.length := by rw [hθ.1.trend.1, hF.changepoints]
  have l2 : (θ' "offset").data.length = ss.length := by rw [((hsz θ').1 hθ'.1).trend.1, hF.changepoints]
  have w := weighedProduct_le σ C (fun i t => obs (ss.get i) t) (fun i t => obs' (ss.get i) t)
    (fun i t => panelMean days (fun _ => "additive") s ss (kept m.fitted) x θ (ss.get i) t)
    (fun i t => panelMean days (fun _ => "additive") s' ss (kept m'.fitted) x' θ' (ss.get i) t) ts
  have hd := squaredDistance_range (θ "offset").data (θ' "offset").data (by rw [l1, l2])
  rw [l1] at hd
  have hf : (ss.map fun a => (f' a - f a) ^ 2).sum
      = ((List.range ss.length).map fun i => (f' (ss.getD i []) - f (ss.getD i [])) ^ 2).sum := by
    congr 1
    refine List.ext_getElem (by simp) fun i hi hi' => ?_
    simp at hi
    simp [List.getD_eq_getElem?_getD, hi]
  have ho : 2 * ((List.range ss.length).map fun i => (f' (ss.getD i []) - f (ss.getD i []))
          * ((θ' "offset").data.getD i 0 - (θ "offset").data.getD i 0)).sum
      ≤ (ss.map fun a => (f' a - f a) ^ 2).sum + squaredDistance (θ "offset").data (θ' "offset").data := by
    rw [hf, hd, ← List.sum_map_mul_left, ← List.sum_map_add]
    refine List.sum_le_sum fun i _ => ?_
    nlinarith [sq_nonneg ((f' (ss.getD i []) - f (ss.getD i []))
      - ((θ' "offset").data.getD i 0 - (θ "offset").data.getD i 0))]
  have ho' := div_le_div_of_nonneg_right ho (sq_nonneg os)
  rw [add_div, mul_div_assoc] at ho'
  linarith

include ht

/-- **C133** for trends that read their initial values off the data: the offsets are centred on the first
observations. -/
theorem C133_smooth (hp : p.detrend = none) :
    weighedError (panelCovariance σ C) ts
        (fun i t => panelMean days (fun _ => "additive") s' ss (kept m'.fitted) x' θ' (ss.get i) t)
        (fun i t => panelMean days (fun _ => "additive") s ss (kept m.fitted) x θ (ss.get i) t)
      + squaredDistance (θ "offset").data (θ' "offset").data / os ^ 2
      + ((kept m.fitted).map fun fe =>
          squaredDistance (θ (fe.name ++ "/coefs")).data (θ' (fe.name ++ "/coefs")).data / sd fe.name ^ 2).sum
    ≤ weighedProduct (panelCovariance σ C) ts (fun i t => obs (ss.get i) t) (fun i t => obs' (ss.get i) t)
        (fun i t => panelMean days (fun _ => "additive") s ss (kept m.fitted) x θ (ss.get i) t)
        (fun i t => panelMean days (fun _ => "additive") s' ss (kept m'.fitted) x' θ' (ss.get i) t)
      + ((List.range ss.length).map fun i => (obs' (ss.getD i []) t₀ - obs (ss.getD i []) t₀)
          * ((θ' "offset").data.getD i 0 - (θ "offset").data.getD i 0)).sum / os ^ 2 :=
  C133_centre hV hM h2 H hb hb0 hX hcomp hfit hfit' hs hs' hex hex' hN hθ hθ' e1 e2
    (panel_first hV hp H.panel H.column H.observed H.series H.dates hX hcomp hfit hs ht)
    (panel_first hV hp H.panel' H.column' H.observed' H.series' H.dates' hX hcomp hfit' hs' ht)

/-- **C133** for these trends: the fitted values and offsets change by no more than the observations and the first
observations. -/
theorem C133_lipschitz (hp : p.detrend = none) :
    weighedError (panelCovariance σ C) ts
        (fun i t => panelMean days (fun _ => "additive") s' ss (kept m'.fitted) x' θ' (ss.get i) t)
        (fun i t => panelMean days (fun _ => "additive") s ss (kept m.fitted) x θ (ss.get i) t)
      + squaredDistance (θ "offset").data (θ' "offset").data / os ^ 2
      + 2 * ((kept m.fitted).map fun fe =>
          squaredDistance (θ (fe.name ++ "/coefs")).data (θ' (fe.name ++ "/coefs")).data / sd fe.name ^ 2).sum
    ≤ weighedError (panelCovariance σ C) ts (fun i t => obs' (ss.get i) t) (fun i t => obs (ss.get i) t)
      + (ss.map fun a => (obs' a t₀ - obs a t₀) ^ 2).sum / os ^ 2 :=
  C133_centre_lipschitz hV hM h2 H hb hb0 hX hcomp hfit hfit' hs hs' hex hex' hN hθ hθ' e1 e2
    (panel_first hV hp H.panel H.column H.observed H.series H.dates hX hcomp hfit hs ht)
    (panel_first hV hp H.panel' H.column' H.observed' H.series' H.dates' hX hcomp hfit' hs' ht)

/-- **C133**: changes after the first date.  The fitted values of the whole panel change by no more than the
observations; with independent noise: the squared changes of the series, each over the fourth power of its noise
level. -/
theorem C133_later (hp : p.detrend = none) (hfirst : ∀ a ∈ ss, obs' a t₀ = obs a t₀) :
    weighedError (panelCovariance σ C) ts
        (fun i t => panelMean days (fun _ => "additive") s' ss (kept m'.fitted) x' θ' (ss.get i) t)
        (fun i t => panelMean days (fun _ => "additive") s ss (kept m.fitted) x θ (ss.get i) t)
      ≤ weighedError (panelCovariance σ C) ts (fun i t => obs' (ss.get i) t) (fun i t => obs (ss.get i) t) ∧
    (C = 1 → ∑ i : Fin ss.length, (ts.map fun t =>
          (panelMean days (fun _ => "additive") s' ss (kept m'.fitted) x' θ' (ss.get i) t
            - panelMean days (fun _ => "additive") s ss (kept m.fitted) x θ (ss.get i) t) ^ 2).sum / σ i ^ 4
        ≤ ∑ i : Fin ss.length, (ts.map fun t => (obs' (ss.get i) t - obs (ss.get i) t) ^ 2).sum / σ i ^ 4) := by
  have h := C133_lipschitz hV hM h2 H hb hb0 hX hcomp hfit hfit' hs hs' hex hex' ht hN hθ hθ' e1 e2 hp
  have h0 : (ss.map fun a => (obs' a t₀ - obs a t₀) ^ 2).sum = 0 := by
    refine List.sum_eq_zero fun v hv => ?_
    obtain ⟨a, ha, rfl⟩ := List.mem_map.1 hv
    rw [hfirst a ha]
    ring
  rw [h0, zero_div, add_zero] at h
  have k1 : 0 ≤ squaredDistance (θ "offset").data (θ' "offset").data / os ^ 2 :=
    div_nonneg (squaredDistance_nonneg _ _) (sq_nonneg _)
  have k2 : 0 ≤ ((kept m.fitted).map fun fe =>
      squaredDistance (θ (fe.name ++ "/coefs")).data (θ' (fe.name ++ "/coefs")).data / sd fe.name ^ 2).sum := by
    refine List.sum_nonneg fun v hv => ?_
    obtain ⟨fe, -, rfl⟩ := List.mem_map.1 hv
    exact div_nonneg (squaredDistance_nonneg _ _) (sq_nonneg _)
  have k3 : weighedError (panelCovariance σ C) ts
        (fun i t => panelMean days (fun _ => "additive") s' ss (kept m'.fitted) x' θ' (ss.get i) t)
        (fun i t => panelMean days (fun _ => "additive") s ss (kept m.fitted) x θ (ss.get i) t)
      ≤ weighedError (panelCovariance σ C) ts (fun i t => obs' (ss.get i) t) (fun i t => obs (ss.get i) t) := by
    linarith
  refine ⟨k3, ?_⟩
  rintro rfl
  rwa [C131_uncorrelated hN.pos, C131_uncorrelated hN.pos] at k3

end
/-! ## A case

The last observation of the second product of `exY113` becomes 20. -/

noncomputable def exY133 : Frame String ℤ ℝ :=
  ⟨2, ["y"], [("p", 0, 1), ("p", 1, 3), ("q", 0, 7), ("q", 1, 20)].map
    fun r => ⟨[r.1], r.2.1, fun _ => r.2.2⟩⟩

theorem exPanel133 : RegularPanel exY133 where
  wf := by
    intro r hr
    simp only [exY133, List.map_cons, List.map_nil, List.mem_cons, List.not_mem_nil, or_false] at hr
    rcases hr with rfl | rfl | rfl | rfl <;> rfl
  levels := by decide
  column := ⟨"y", rfl⟩
  ordered := by
    unfold TimeSorted exY133
    simp
  regular := by
    intro r hr r' hr'
    simp only [exY133, List.map_cons, List.map_nil, List.mem_cons, List.not_mem_nil, or_false] at hr hr'
    rcases hr with rfl | rfl | rfl | rfl <;>
      rcases hr' with rfl | rfl | rfl | rfl <;> simp [exY133]
  bottom := ⟨⟨["p"], 0, fun _ => 1⟩, by simp [exY133], by simp⟩
  twoDates := ⟨⟨["p"], 0, fun _ => 1⟩, by simp [exY133], ⟨["p"], 1, fun _ => 3⟩, by simp [exY133], by simp⟩

theorem exSeries133 : SeriesOf exY133 [["p"], ["q"]] where
  sorted := by
    refine List.pairwise_pair.2 ?_
    decide
  mem := by
    intro s
    simp only [exY133, List.map_cons, List.map_nil, List.mem_cons, List.not_mem_nil, or_false,
      exists_eq_or_imp, exists_eq_left]
    constructor
    · rintro (rfl | rfl) <;> simp
    · rintro ⟨h, h' | h' | h' | h'⟩ <;> subst h' <;> simp

theorem exDates133 : DatesOf exY133 [0, 1] where
  sorted := by simp
  mem := by
    intro t
    simp only [exY133, List.map_cons, List.map_nil, List.mem_cons, List.not_mem_nil, or_false,
      exists_eq_or_imp, exists_eq_left]
    omega

theorem exTwo133 : TwoPanels [["p"], ["q"]] [0, 1] exY113 exY133 "y" "y" (fun a t => cellAt exY113 a t "y")
    (fun a t => cellAt exY133 a t "y") where
  panel := exPanel113
  panel' := exPanel133
  column := rfl
  column' := rfl
  observed := fun r hr _ => cellAt_of_mem exPanel113.ordered hr (by simp [exY113])
  observed' := fun r hr _ => cellAt_of_mem exPanel133.ordered hr (by simp [exY133])
  series := exSeries113
  series' := exSeries133
  dates := exDates113
  dates' := exDates133

/-- Both best fits exist, with the noise levels 1 and 2 and correlated noise, and the theorem applies to them. -/
example : ∃ m m' s s' x x' θ θ', hierFitData exCfg114 exY113 (some exX113) = .ok m ∧
    hierFitData exCfg114 exY133 (some exX113) = .ok m' ∧ NoiseOf ![1, 2] exL46 θ ∧
    BestPanel (fun _ _ _ => 0) 1 1 (1 / 10) (fun _ => normalLP 0 2) s m θ ∧
    BestPanel (fun _ _ _ => 0) 1 1 (1 / 10) (fun _ => normalLP 0 2) s' m' θ' ∧
    weighedError (panelCovariance ![1, 2] exL46) [0, 1]
        (fun i t => panelMean (fun t : ℤ => (t : ℝ)) (fun _ => "additive") s' [["p"], ["q"]] (kept m'.fitted) x' θ'
            ([["p"], ["q"]].get i) t)
        (fun i t => panelMean (fun t : ℤ => (t : ℝ)) (fun _ => "additive") s [["p"], ["q"]] (kept m.fitted) x θ
            ([["p"], ["q"]].get i) t)
      ≤ weighedError (panelCovariance ![1, 2] exL46) [0, 1] (fun i t => cellAt exY133 ([["p"], ["q"]].get i) t "y")
          (fun i t => cellAt exY113 ([["p"], ["q"]].get i) t "y") := by
  have hX := exExog113 (ts := [0, 1]) (by simp) (by simp) (by simp)
  have hc : ∀ c ∈ givenCols (some exX113), c ∉ exCfg114.shared → ∃ q, exCfg114.compile c = .ok q :=
    fun _ _ _ => ⟨_, rfl⟩
  have k1 : VectorSite (n := 2) ⟨[2], [1, 2]⟩ ![1, 2] := ⟨rfl, fun i => by fin_cases i <;> rfl⟩
  have k2 : ∀ i, (0 : ℝ) < ![1, 2] i := fun i => by fin_cases i <;> simp
  have k3 : MatrixSite (exθ90 "corr_matrix") exL46 := ⟨rfl, fun i j => by fin_cases i <;> fin_cases j <;> rfl⟩
  obtain ⟨m, s, h1, hs, h⟩ := C114_exists exValid114 exModes114 exPanel113 exSeries113 (by simp) exDates113
    (b := 1 / 10) rfl (by norm_num) hX hc
  obtain ⟨m', s', h1', hs', h'⟩ := C114_exists exValid114 exModes114 exPanel133 exSeries133 (by simp) exDates133
    (b := 1 / 10) rfl (by norm_num) hX hc
  obtain ⟨θ, h2, h3, h4⟩ := h (fun _ _ _ => 0) 1 1 (1 / 10) (fun _ => normalLP 0 2) (by norm_num)
    (fun _ => continuous_normalLP 0 2) (fun _ => tendsto_normalLP 0 two_ne_zero) ⟨[2], [1, 2]⟩
    (exθ90 "corr_matrix") ![1, 2] exL46 rfl k1 k2 k3 exL46_factor
  obtain ⟨θ', h2', h3', h4'⟩ := h' (fun _ _ _ => 0) 1 1 (1 / 10) (fun _ => normalLP 0 2) (by norm_num)
    (fun _ => continuous_normalLP 0 2) (fun _ => tendsto_normalLP 0 two_ne_zero) ⟨[2], [1, 2]⟩
    (exθ90 "corr_matrix") ![1, 2] exL46 rfl k1 k2 k3 exL46_factor
  have hN : NoiseOf (n := 2) ![1, 2] exL46 θ := ⟨by rw [h2]; rfl, by rw [h2]; exact k1, k2, by rw [h3]; exact k3, exL46_factor⟩
  obtain ⟨x, s₁, hex, -, -⟩ := hier_posterior exValid114 exModes114 exPanel113 rfl exTwo133.observed exSeries113 (by simp)
    exDates113 trivial hX hc h1
  obtain ⟨x', s₂, hex', -, -⟩ := hier_posterior exValid114 exModes114 exPanel133 rfl exTwo133.observed' exSeries133 (by simp)
    exDates133 trivial hX hc h1'
  refine ⟨m, m', s, s', x, x', θ, θ', h1, h1', hN, h4, h4', ?_⟩
  refine (C133_later exValid114 exModes114 (by simp) exTwo133 (b := 1 / 10) rfl (by norm_num) hX hc h1 h1' hs hs' hex hex'
    (t₀ := 0) rfl (sd := fun _ => 2) hN h4 h4' (h2'.trans h2.symm) (h3'.trans h3.symm) rfl ?_).1
  intro a ha
  simp only [List.mem_cons, List.not_mem_nil, or_false] at ha
  have q1 := fun r hr => cellAt_of_mem exPanel113.ordered (r := r) hr (c := "y") (by simp [exY113])
  have q2 := fun r hr => cellAt_of_mem exPanel133.ordered (r := r) hr (c := "y") (by simp [exY133])
  rcases ha with rfl | rfl
  · have a1 := q1 ⟨["p"], 0, fun _ => 1⟩ (by simp [exY113])
    have a2 := q2 ⟨["p"], 0, fun _ => 1⟩ (by simp [exY133])
    exact a2.trans a1.symm
  · have a1 := q1 ⟨["q"], 0, fun _ => 7⟩ (by simp [exY113])
    have a2 := q2 ⟨["q"], 0, fun _ => 7⟩ (by simp [exY133])
    exact a2.trans a1.symm

end PV
