import Verif.Props.PanelStable

/-!
# C135: what the best fit of a panel balances

At the best fit of the hierarchical forecaster for given noise levels and correlation, the residuals of all
series, weighed by the inverse of their covariance, balance the pulls of the priors.
-/

set_option linter.unusedSectionVars false

namespace PV
open Tensor Filter Matrix

/-! ## Specification -/

section
variable {τ : Type} [LinearOrder τ]

/-- The weighed residuals of a panel: at a date, the residuals of all series multiplied by the inverse of the
covariance; entry of a series. -/
noncomputable def weighedResidual {n : Nat} (V : Matrix (Fin n) (Fin n) ℝ) (obs M : Fin n → τ → ℝ) (i : Fin n)
    (t : τ) : ℝ := (V⁻¹ *ᵥ fun k => obs k t - M k t) i

/-- What one unit of trend adds to the mean of a series: itself, and what the multiplicative effects make of
it. -/
noncomputable def panelGain {S Y Sc D : Type} (mode : String → String) (l : List (FittedEffect S Y Sc τ ℝ D ℝ))
    (x : Frame String τ ℝ) (θ : SiteEnv ℝ) (a : List String) (t : τ) : ℝ :=
  1 + (l.map fun fe => if mode fe.name = "additive" then 0 else
    dot (fe.cols.map (cellAt x a t)) (θ (fe.name ++ "/coefs")).data).sum

end

/-! ## Lemmas -/

/-- Moving the means along `a` changes the weighed error by a linear and a quadratic part. -/
theorem weighedError_move {τ : Type} {n : Nat} (σ : Fin n → ℝ) (C : Matrix (Fin n) (Fin n) ℝ)
    (obs M a : Fin n → τ → ℝ) (h : ℝ) : ∀ ts : List τ,
    weighedError (panelCovariance σ C) ts obs (fun i t => M i t + h * a i t)
      = weighedError (panelCovariance σ C) ts obs M
        - 2 * h * (ts.map fun t => ∑ i, a i t * weighedResidual (panelCovariance σ C) obs M i t).sum
        + h ^ 2 * weighedError (panelCovariance σ C) ts a (fun _ _ => 0)
  | [] => by simp [weighedError]
  | t :: ts => by
    have ih := weighedError_move σ C obs M a h ts
    have h1 : (fun i => obs i t - (M i t + h * a i t)) ⬝ᵥ ((panelCovariance σ C)⁻¹ *ᵥ
          fun i => obs i t - (M i t + h * a i t))
        = (fun i => obs i t - M i t) ⬝ᵥ ((panelCovariance σ C)⁻¹ *ᵥ fun i => obs i t - M i t)
          - 2 * h * ((fun i => a i t) ⬝ᵥ ((panelCovariance σ C)⁻¹ *ᵥ fun i => obs i t - M i t))
          + h ^ 2 * ((fun i => a i t - 0) ⬝ᵥ ((panelCovariance σ C)⁻¹ *ᵥ fun i => a i t - 0)) := by
      simp only [covariance_product, sub_zero]
      set R := (obsScaleTril σ C)⁻¹
      have hv : (R *ᵥ fun i => obs i t - (M i t + h * a i t))
          = fun i => (R *ᵥ fun i => obs i t - M i t) i - h * (R *ᵥ fun i => a i t) i := by
        have : (fun i => obs i t - (M i t + h * a i t)) = (fun i => obs i t - M i t) - h • fun i => a i t := by
          funext i
          simp only [Pi.sub_apply, Pi.smul_apply, smul_eq_mul]
          ring
        rw [this, mulVec_sub, mulVec_smul]
        rfl
      rw [hv]
      simp only [dotProduct]
      rw [Finset.mul_sum, Finset.mul_sum, ← Finset.sum_sub_distrib, ← Finset.sum_add_distrib]
      exact Finset.sum_congr rfl fun i _ => by ring
    unfold weighedError at ih ⊢
    simp only [List.map_cons, List.sum_cons]
    rw [ih, h1]
    have h2 : ((fun i => a i t) ⬝ᵥ ((panelCovariance σ C)⁻¹ *ᵥ fun i => obs i t - M i t))
        = ∑ i, a i t * weighedResidual (panelCovariance σ C) obs M i t := rfl
    rw [h2]
    ring

theorem zip_modify (h : ℝ) : ∀ (a l : List ℝ) (j : Nat), j < l.length → l.length = a.length →
    (List.zipWith (fun μ o => (o - μ) ^ 2) a (l.modify j (· + h))).sum
      = (List.zipWith (fun μ o => (o - μ) ^ 2) a l).sum
        + (2 * h * (l.getD j 0 - a.getD j 0) + h ^ 2)
  | [], [], j, hj, _ => by simp at hj
  | [], _ :: _, j, _, hl => by simp at hl
  | μ :: a, v :: l, 0, _, _ => by
    simp
    ring
  | μ :: a, v :: l, j + 1, hj, hl => by
    have := zip_modify h a l j (by simpa using hj) (by simpa using hl)
    simp only [List.modify_succ_cons, List.zipWith_cons_cons, List.sum_cons, List.getD_cons_succ]
    linarith

/-- An entry of the flat list is an entry of one of the pieces. -/
theorem splitLengths_modify (f : ℝ → ℝ) : ∀ (ns : List Nat) (l : List ℝ) (i j n : Nat), ns[i]? = some n → j < n →
    ns.splitLengths (l.modify ((ns.take i).sum + j) f) = (ns.splitLengths l).modify i (·.modify j f)
  | [], l, i, j, n, h, _ => by simp at h
  | k :: ns, l, 0, j, n, h, hj => by
    simp only [List.getElem?_cons_zero, Option.some.injEq] at h
    subst h
    simp only [List.take_zero, List.sum_nil, Nat.zero_add, List.splitLengths_cons, List.modify_zero_cons]
    rw [List.take_modify, List.drop_modify_of_lt _ _ _ _ hj]
  | k :: ns, l, i + 1, j, n, h, hj => by
    simp only [List.getElem?_cons_succ] at h
    simp only [List.take_succ_cons, List.sum_cons, List.splitLengths_cons, List.modify_succ_cons]
    have e : k + (ns.take i).sum + j = k + ((ns.take i).sum + j) := by omega
    rw [e, ← splitLengths_modify f ns (l.drop k) i j n h hj, List.drop_modify_of_ge _ _ _ _ (by omega)]
    congr 1
    · rw [List.take_modify]
      exact List.modify_eq_self (by simp)
    · congr 2
      omega

theorem getD_modify_self {α : Type} (f : α → α) (d : α) : ∀ (l : List α) (i : Nat), i < l.length →
    (l.modify i f).getD i d = f (l.getD i d)
  | [], i, h => by simp at h
  | a :: l, 0, _ => by simp
  | a :: l, i + 1, h => by
    simp only [List.modify_succ_cons, List.getD_cons_succ]
    exact getD_modify_self f d l i (by simpa using h)

theorem getD_modify_ne {α : Type} (f : α → α) (d : α) : ∀ (l : List α) (i j : Nat), i ≠ j →
    (l.modify i f).getD j d = l.getD j d
  | [], i, j, _ => by simp
  | a :: l, 0, 0, h => absurd rfl h
  | a :: l, 0, j + 1, _ => by simp
  | a :: l, i + 1, 0, _ => by simp
  | a :: l, i + 1, j + 1, h => by
    simp only [List.modify_succ_cons, List.getD_cons_succ]
    exact getD_modify_ne f d l i j (by omega)

theorem getD_splitLengths : ∀ (ns : List Nat) (l : List ℝ) (i j n : Nat), ns[i]? = some n → j < n →
    ((ns.splitLengths l).getD i []).getD j 0 = l.getD ((ns.take i).sum + j) 0
  | [], l, i, j, n, h, _ => by simp at h
  | k :: ns, l, 0, j, n, h, hj => by
    simp only [List.getElem?_cons_zero, Option.some.injEq] at h
    subst h
    simp [List.getD_eq_getElem?_getD, List.getElem?_take, hj]
  | k :: ns, l, i + 1, j, n, h, hj => by
    simp only [List.getElem?_cons_succ] at h
    simp only [List.take_succ_cons, List.sum_cons, List.splitLengths_cons, List.getD_cons_succ]
    rw [getD_splitLengths ns (l.drop k) i j n h hj]
    simp [List.getD_eq_getElem?_getD, Nat.add_assoc]

theorem take_sum_lt : ∀ (ns : List Nat) (i j n : Nat), ns[i]? = some n → j < n → (ns.take i).sum + j < ns.sum
  | [], i, j, n, h, _ => by simp at h
  | k :: ns, 0, j, n, h, hj => by
    simp only [List.getElem?_cons_zero, Option.some.injEq] at h
    subst h
    simp
    omega
  | k :: ns, i + 1, j, n, h, hj => by
    simp only [List.getElem?_cons_succ] at h
    have := take_sum_lt ns i j n h hj
    simp only [List.take_succ_cons, List.sum_cons]
    omega

/-! ## The theorems -/

section
variable {τ : Type} [LinearOrder τ] {days : τ → ℝ} {p : PiecewiseParams ℝ τ}
  {cfg : HierConfig (Option (PiecewiseState ℝ τ)) (Scale ℝ) τ (Tensor ℝ) ℝ} {mode : String → String}

variable (hV : ValidHier days p cfg) (hM : Modes mode cfg) {y : Frame String τ ℝ}
    (hy : RegularPanel y) {c : String} (hc : y.cols = [c]) {obs : List String → τ → ℝ} (hobs : Observed y c obs)
    {ss : List (List String)} (hss : SeriesOf y ss) (h2 : 2 ≤ ss.length) {ts : List τ} (hts : DatesOf y ts)
    {b : ℝ} (hb : p.priorScale = .scalar b) {X : Option (Frame String τ ℝ)} (hX : GivenExog X ss ts)
    (hcomp : ∀ c ∈ givenCols X, c ∉ cfg.shared → ∃ q, cfg.compile c = .ok q)
    {m : HierFit (Option (PiecewiseState ℝ τ)) (Scale ℝ) τ (Tensor ℝ) ℝ} (hfit : hierFitData cfg y X = .ok m)
    {s : PiecewiseState ℝ τ} (hs : m.trend.st.2 = some s) {x : Frame String τ ℝ}
    (hex : hierExog cfg (aggregate cfg.keep y) X = .ok (m.expand, x))
    {lkj : Nat → ℝ → Tensor ℝ → ℝ} {ns conc os : ℝ} {sd : String → ℝ}
    {σ : Fin ss.length → ℝ} {C : Matrix (Fin ss.length) (Fin ss.length) ℝ}

theorem bump_hierSizes {θ : SiteEnv ℝ} {n : String} {j : Nat} {h : ℝ} (hz : HierSizes s m θ) :
    HierSizes s m (bump θ n j h) :=
  ⟨⟨bump_length.trans hz.trend.1, bump_length.trans hz.trend.2⟩, fun fe h1 h2 => bump_length.trans (hz.coefs fe h1 h2)⟩

/-- The mean of a series after a change of its trend. -/
theorem panelMean_trend {l : List (FittedEffect (Option (PiecewiseState ℝ τ)) (Frame String τ ℝ) (Scale ℝ) τ ℝ (Tensor ℝ) ℝ)}
    {θ θ' : SiteEnv ℝ} {a : List String} {t : τ} {d : ℝ}
    (hT : panelTrendAt days s ss θ' a t = panelTrendAt days s ss θ a t + d)
    (hco : ∀ fe ∈ l, θ' (fe.name ++ "/coefs") = θ (fe.name ++ "/coefs")) :
    panelMean days mode s ss l x θ' a t = panelMean days mode s ss l x θ a t + d * panelGain mode l x θ a t := by
  unfold panelMean panelGain
  rw [hT]
  have : (l.map fun fe => combine (mode fe.name) (panelTrendAt days s ss θ a t + d)
        (dot (fe.cols.map (cellAt x a t)) (θ' (fe.name ++ "/coefs")).data)).sum
      = (l.map fun fe => combine (mode fe.name) (panelTrendAt days s ss θ a t)
          (dot (fe.cols.map (cellAt x a t)) (θ (fe.name ++ "/coefs")).data)
        + d * (if mode fe.name = "additive" then 0 else
            dot (fe.cols.map (cellAt x a t)) (θ (fe.name ++ "/coefs")).data)).sum := by
    refine congrArg List.sum (List.map_congr_left fun fe hfe => ?_)
    rw [hco fe hfe, combine_trend]
  rw [this, List.sum_map_add, List.sum_map_mul_left]
  ring

include hV hM hy hc hobs hss h2 hts hb hX hcomp hfit hs hex

/-- Moving one entry does not improve a best fit of a panel. -/
theorem panel_move {θ : SiteEnv ℝ} (hN : NoiseOf σ C θ)
    (hθ : BestPanel lkj ns conc os (fun n => normalLP 0 (sd n)) s m θ) {n : String} (hn1 : "std_observation" ≠ n)
    (hn2 : "corr_matrix" ≠ n) {j : Nat} {h : ℝ} {a : Fin ss.length → τ → ℝ}
    (hmean : ∀ i t, panelMean days mode s ss (kept m.fitted) x (bump θ n j h) (ss.get i) t
      = panelMean days mode s ss (kept m.fitted) x θ (ss.get i) t + h * a i t) :
    2 * h * (ts.map fun t => ∑ i, a i t * weighedResidual (panelCovariance σ C) (fun i t => obs (ss.get i) t)
        (fun i t => panelMean days mode s ss (kept m.fitted) x θ (ss.get i) t) i t).sum
      - h ^ 2 * weighedError (panelCovariance σ C) ts a (fun _ _ => 0)
      ≤ panelPrice s m os b sd (bump θ n j h) - panelPrice s m os b sd θ := by
  have h1 := (C131_penalised hV hM hy hc hobs hss h2 hts hb hX hcomp hfit hs hex hθ.1 hN).1 hθ (bump θ n j h)
    (bump_hierSizes hθ.1) (bump_ne hn1) (bump_ne hn2)
  simp only [hmean] at h1
  rw [weighedError_move σ C (fun i t => obs (ss.get i) t)
    (fun i t => panelMean days mode s ss (kept m.fitted) x θ (ss.get i) t) a h ts] at h1
  linarith

/-- **C135**: at the best fit of a panel, the weighed residuals of a series, each times what one unit of trend adds
to its mean, sum to the distance of its offset from the centre of the prior over the squared prior scale. -/
theorem C135_offset (hos : os ≠ 0) {θ : SiteEnv ℝ} (hN : NoiseOf σ C θ)
    (hθ : BestPanel lkj ns conc os (fun n => normalLP 0 (sd n)) s m θ) (i : Fin ss.length) :
    (ts.map fun t => panelGain mode (kept m.fitted) x θ (ss.get i) t
        * weighedResidual (panelCovariance σ C) (fun i t => obs (ss.get i) t)
          (fun i t => panelMean days mode s ss (kept m.fitted) x θ (ss.get i) t) i t).sum
      = ((θ "offset").data.getD i 0 - s.offsetLoc.getD i 0) / os ^ 2 := by
  obtain ⟨h, ho, hl0, hsc, hll, hsl, hF⟩ := panel_facts hV hM hy hc hobs hss h2 hts hb hX hcomp hfit hs hex
  have hnd : ss.Nodup := hss.sorted.imp fun h => ne_of_lt h
  have hidx : ∀ k : Fin ss.length, ss.idxOf (ss.get k) = k := fun k => List.Nodup.idxOf_getElem hnd _ _
  have hlen : (θ "offset").data.length = ss.length := by rw [hθ.1.trend.1, h.changepoints]
  set a : Fin ss.length → τ → ℝ := fun k t => if k = i then panelGain mode (kept m.fitted) x θ (ss.get k) t else 0 with ha
  have hmv := fun u : ℝ => panel_move (n := "offset") (j := i) (h := u) (a := a) hV hM hy hc hobs hss h2 hts hb hX hcomp
    hfit hs hex hN hθ (by decide) (by decide) (fun k t => by
      have hco : ∀ fe ∈ kept m.fitted, bump θ "offset" i u (fe.name ++ "/coefs") = θ (fe.name ++ "/coefs") :=
        fun fe _ => bump_ne (coefs_site_ne _ (by decide))
      have hT : panelTrendAt days s ss (bump θ "offset" i u) (ss.get k) t
          = panelTrendAt days s ss θ (ss.get k) t + if k = i then u else 0 := by
        unfold panelTrendAt seriesCoefs
        rw [bump_data, bump_ne (k := "changepoint_coefficients") (by decide), hidx]
        unfold trendAt
        by_cases hk : k = i
        · subst hk
          rw [getD_modify_self _ _ _ _ (by rw [hlen]; exact k.2), if_pos rfl]
          ring
        · rw [getD_modify_ne _ _ _ _ _ (fun h => hk (Fin.ext h.symm)), if_neg hk, add_zero]
      rw [panelMean_trend hT hco]
      simp only [ha]
      split <;> simp)
  have hprice : ∀ u : ℝ, panelPrice s m os b sd (bump θ "offset" i u) - panelPrice s m os b sd θ
      = (2 * u * ((θ "offset").data.getD i 0 - s.offsetLoc.getD i 0) + u ^ 2) / os ^ 2 := by
    intro u
    have e2 : bump θ "offset" i u "changepoint_coefficients" = θ "changepoint_coefficients" := bump_ne (by decide)
    have e3 : ∀ n : String, bump θ "offset" i u (n ++ "/coefs") = θ (n ++ "/coefs") :=
      fun n => bump_ne (coefs_site_ne _ (by decide))
    unfold panelPrice
    simp only [e2, e3]
    rw [bump_data, zip_modify _ _ _ _ (by rw [hlen]; exact i.2) (by rw [hlen, ho])]
    ring
  have hsum : (ts.map fun t => ∑ k, a k t * weighedResidual (panelCovariance σ C) (fun i t => obs (ss.get i) t)
        (fun i t => panelMean days mode s ss (kept m.fitted) x θ (ss.get i) t) k t)
      = ts.map fun t => panelGain mode (kept m.fitted) x θ (ss.get i) t
        * weighedResidual (panelCovariance σ C) (fun i t => obs (ss.get i) t)
          (fun i t => panelMean days mode s ss (kept m.fitted) x θ (ss.get i) t) i t := by
    refine List.map_congr_left fun t _ => ?_
    rw [Finset.sum_eq_single i]
    · simp [ha]
    · intro k _ hk
      simp [ha, hk]
    · simp
  rw [hsum] at hmv
  have key := slope_zero (A := (ts.map fun t => panelGain mode (kept m.fitted) x θ (ss.get i) t
        * weighedResidual (panelCovariance σ C) (fun i t => obs (ss.get i) t)
          (fun i t => panelMean days mode s ss (kept m.fitted) x θ (ss.get i) t) i t).sum
        - ((θ "offset").data.getD i 0 - s.offsetLoc.getD i 0) / os ^ 2)
    (B := weighedError (panelCovariance σ C) ts a (fun _ _ => 0) / 2 + 1 / (2 * os ^ 2)) one_pos fun u _ => by
      have := hmv u
      rw [hprice] at this
      simp only [div_eq_mul_inv, one_mul, mul_inv] at this ⊢
      linarith
  linarith

/-- **C135**: at the best fit of a panel, the weighed residuals of all series and dates, each times the regressor and
what one unit of the effect adds to the mean, sum to the coefficient over the squared prior scale. -/
theorem C135_effect {θ : SiteEnv ℝ} (hN : NoiseOf σ C θ)
    (hθ : BestPanel lkj ns conc os (fun n => normalLP 0 (sd n)) s m θ)
    {fe : FittedEffect (Option (PiecewiseState ℝ τ)) (Frame String τ ℝ) (Scale ℝ) τ ℝ (Tensor ℝ) ℝ}
    (hfe : fe ∈ kept m.fitted) (hsd : sd fe.name ≠ 0) {j : Nat} (hj : j < fe.cols.length) :
    (ts.map fun t => ∑ i, effectGain (mode fe.name) (panelTrendAt days s ss θ (ss.get i) t)
        * cellAt x (ss.get i) t fe.cols[j]
        * weighedResidual (panelCovariance σ C) (fun i t => obs (ss.get i) t)
          (fun i t => panelMean days mode s ss (kept m.fitted) x θ (ss.get i) t) i t).sum
      = (θ (fe.name ++ "/coefs")).data.getD j 0 / sd fe.name ^ 2 := by
  obtain ⟨h, -⟩ := panel_facts hV hM hy hc hobs hss h2 hts hb hX hcomp hfit hs hex
  have hn : ((kept m.fitted).map FittedEffect.name).Nodup :=
    (List.filter_sublist.map FittedEffect.name).nodup h.nodup
  obtain ⟨g1, g2⟩ := (hier_kept h).1 hfe
  have hlen : j < (θ (fe.name ++ "/coefs")).data.length := by rw [hθ.1.coefs fe g1 g2]; exact hj
  have hother : ∀ u, ∀ e ∈ (kept m.fitted).filter (fun e => e.name ≠ fe.name),
      bump θ (fe.name ++ "/coefs") j u (e.name ++ "/coefs") = θ (e.name ++ "/coefs") := by
    intro u e he
    have hne : e.name ≠ fe.name := by simpa using (List.mem_filter.1 he).2
    refine bump_ne fun h' => hne ?_
    simpa using h'
  set a : Fin ss.length → τ → ℝ := fun i t => effectGain (mode fe.name) (panelTrendAt days s ss θ (ss.get i) t)
        * cellAt x (ss.get i) t fe.cols[j] with ha
  have hmv := fun u : ℝ => panel_move (n := fe.name ++ "/coefs") (j := j) (h := u) (a := a) hV hM hy hc hobs hss h2 hts hb
    hX hcomp hfit hs hex hN hθ (coefs_site_ne _ (by decide)).symm (coefs_site_ne _ (by decide)).symm (fun k t => by
      have hTr : panelTrendAt days s ss (bump θ (fe.name ++ "/coefs") j u) (ss.get k) t
          = panelTrendAt days s ss θ (ss.get k) t := by
        unfold panelTrendAt seriesCoefs
        rw [bump_ne (coefs_site_ne _ (by decide)).symm, bump_ne (coefs_site_ne _ (by decide)).symm]
      unfold panelMean
      rw [hTr, sum_apart FittedEffect.name _ fe hn hfe, sum_apart FittedEffect.name
        (fun fe => combine (mode fe.name) (panelTrendAt days s ss θ (ss.get k) t)
          (dot (fe.cols.map (cellAt x (ss.get k) t)) (θ (fe.name ++ "/coefs")).data)) fe hn hfe]
      have : (((kept m.fitted).filter fun e => e.name ≠ fe.name).map fun e =>
          combine (mode e.name) (panelTrendAt days s ss θ (ss.get k) t)
            (dot (e.cols.map (cellAt x (ss.get k) t)) (bump θ (fe.name ++ "/coefs") j u (e.name ++ "/coefs")).data))
          = ((kept m.fitted).filter fun e => e.name ≠ fe.name).map fun e =>
            combine (mode e.name) (panelTrendAt days s ss θ (ss.get k) t)
              (dot (e.cols.map (cellAt x (ss.get k) t)) (θ (e.name ++ "/coefs")).data) :=
        List.map_congr_left fun e he => by rw [hother u e he]
      rw [this, bump_data, dot_modify _ _ _ _ hlen, combine_value]
      have hg : (fe.cols.map (cellAt x (ss.get k) t)).getD j 0 = cellAt x (ss.get k) t fe.cols[j] := by
        rw [List.getD_eq_getElem _ _ (by simpa using hj), List.getElem_map]
      rw [hg]
      simp only [ha]
      ring)
  have hprice : ∀ u : ℝ, panelPrice s m os b sd (bump θ (fe.name ++ "/coefs") j u) - panelPrice s m os b sd θ
      = (2 * u * (θ (fe.name ++ "/coefs")).data.getD j 0 + u ^ 2) / sd fe.name ^ 2 := by
    intro u
    unfold panelPrice
    rw [bump_ne (coefs_site_ne _ (by decide)).symm, bump_ne (coefs_site_ne _ (by decide)).symm,
      sum_apart FittedEffect.name (fun e => ((θ (e.name ++ "/coefs")).data.map fun v => v ^ 2).sum / sd e.name ^ 2)
        fe hn hfe,
      sum_apart FittedEffect.name
        (fun e => ((bump θ (fe.name ++ "/coefs") j u (e.name ++ "/coefs")).data.map fun v => v ^ 2).sum / sd e.name ^ 2)
        fe hn hfe]
    have : (((kept m.fitted).filter fun e => e.name ≠ fe.name).map fun e =>
        ((bump θ (fe.name ++ "/coefs") j u (e.name ++ "/coefs")).data.map fun v => v ^ 2).sum / sd e.name ^ 2)
        = ((kept m.fitted).filter fun e => e.name ≠ fe.name).map fun e =>
          ((θ (e.name ++ "/coefs")).data.map fun v => v ^ 2).sum / sd e.name ^ 2 :=
      List.map_congr_left fun e he => by rw [hother u e he]
    rw [this, bump_data, sum_modify _ _ _ _ hlen]
    ring
  have key := slope_zero (A := (ts.map fun t => ∑ i, a i t
        * weighedResidual (panelCovariance σ C) (fun i t => obs (ss.get i) t)
          (fun i t => panelMean days mode s ss (kept m.fitted) x θ (ss.get i) t) i t).sum
        - (θ (fe.name ++ "/coefs")).data.getD j 0 / sd fe.name ^ 2)
    (B := weighedError (panelCovariance σ C) ts a (fun _ _ => 0) / 2 + 1 / (2 * sd fe.name ^ 2)) one_pos fun u _ => by
      have := hmv u
      rw [hprice] at this
      simp only [div_eq_mul_inv, one_mul, mul_inv] at this ⊢
      linarith
  linarith

/-- **C135**: at the best fit of a panel, the pull of the weighed residuals of a series on a change of slope is at most
the inverse of the changepoint prior scale, and equal to it, with the sign of the change, where the slope does change. -/
theorem C135_changepoints (hb0 : 0 < b) {θ : SiteEnv ℝ} (hN : NoiseOf σ C θ)
    (hθ : BestPanel lkj ns conc os (fun n => normalLP 0 (sd n)) s m θ) (i : Fin ss.length) {cs : List ℝ}
    (hcs : s.cps[(i : Nat)]? = some cs) {j : Nat} (hj : j < cs.length) :
    let pull := (ts.map fun t => panelGain mode (kept m.fitted) x θ (ss.get i) t
        * rampEntry (s.time.scaled days t) cs[j]
        * weighedResidual (panelCovariance σ C) (fun i t => obs (ss.get i) t)
          (fun i t => panelMean days mode s ss (kept m.fitted) x θ (ss.get i) t) i t).sum
    let δ := ((seriesCoefs s.cps θ).getD i []).getD j 0
    |pull| ≤ 1 / b ∧ (0 < δ → pull = 1 / b) ∧ (δ < 0 → pull = -(1 / b)) := by
  intro pull δ
  obtain ⟨h, ho, hl0, hsc, hll, hsl, hF⟩ := panel_facts hV hM hy hc hobs hss h2 hts hb hX hcomp hfit hs hex
  have hnd : ss.Nodup := hss.sorted.imp fun h => ne_of_lt h
  have hidx : ∀ k : Fin ss.length, ss.idxOf (ss.get k) = k := fun k => List.Nodup.idxOf_getElem hnd _ _
  have hni : (s.cps.map List.length)[(i : Nat)]? = some cs.length := by rw [List.getElem?_map, hcs]; rfl
  have hil : (i : Nat) < s.cps.length := (List.getElem?_eq_some_iff.1 hcs).1
  set q := ((s.cps.map List.length).take i).sum + j with hq
  have hpieces : ∀ u : ℝ, seriesCoefs s.cps (bump θ "changepoint_coefficients" q u)
      = (seriesCoefs s.cps θ).modify i (·.modify j (· + u)) := by
    intro u
    unfold seriesCoefs
    rw [bump_data, hq, splitLengths_modify _ _ _ _ _ _ hni hj]
  have hpl : ∀ ψ : SiteEnv ℝ, (seriesCoefs s.cps ψ).length = s.cps.length := fun ψ => by
    unfold seriesCoefs
    rw [List.length_splitLengths, List.length_map]
  have hjl : j < ((seriesCoefs s.cps θ).getD i []).length := by
    have hi' : (i : Nat) < (seriesCoefs s.cps θ).length := by rw [hpl]; exact hil
    rw [List.getD_eq_getElem _ _ hi']
    have e : (seriesCoefs s.cps θ).map List.length = s.cps.map List.length :=
      List.map_splitLengths_length _ _ (by rw [hθ.1.trend.2])
    have e2 := congrArg (fun l => l[(i : Nat)]?) e
    simp only [hni] at e2
    rw [List.getElem?_map, List.getElem?_eq_getElem hi'] at e2
    have e3 : ((seriesCoefs s.cps θ)[(i : Nat)]).length = cs.length := Option.some.inj e2
    rw [e3]
    exact hj
  have hflat : ∀ u : ℝ, ((bump θ "changepoint_coefficients" q u "changepoint_coefficients").data.map fun v => |v|).sum
      = ((θ "changepoint_coefficients").data.map fun v => |v|).sum + (|δ + u| - |δ|) := by
    intro u
    have e : δ = (θ "changepoint_coefficients").data.getD q 0 := getD_splitLengths _ _ _ _ _ hni hj
    rw [bump_data, sum_modify _ _ _ _ (by rw [hθ.1.trend.2]; exact take_sum_lt _ _ _ _ hni hj), e]
  set a : Fin ss.length → τ → ℝ := fun k t => if k = i then panelGain mode (kept m.fitted) x θ (ss.get k) t
    * rampEntry (s.time.scaled days t) cs[j] else 0 with ha
  have hmv := fun u : ℝ => panel_move (n := "changepoint_coefficients") (j := q) (h := u) (a := a) hV hM hy hc hobs hss h2
    hts hb hX hcomp hfit hs hex hN hθ (by decide) (by decide) (fun k t => by
      have hco : ∀ fe ∈ kept m.fitted, bump θ "changepoint_coefficients" q u (fe.name ++ "/coefs")
          = θ (fe.name ++ "/coefs") := fun fe _ => bump_ne (coefs_site_ne _ (by decide))
      have hT : panelTrendAt days s ss (bump θ "changepoint_coefficients" q u) (ss.get k) t
          = panelTrendAt days s ss θ (ss.get k) t
            + if k = i then u * rampEntry (s.time.scaled days t) cs[j] else 0 := by
        unfold panelTrendAt
        rw [hpieces, bump_ne (k := "offset") (by decide), hidx, trendAt_dot, trendAt_dot]
        by_cases hk : k = i
        · subst hk
          rw [getD_modify_self _ _ _ _ (by rw [hpl]; exact hil), if_pos rfl, dot_modify _ _ _ _ hjl]
          have e1 : s.cps.getD k [] = cs := by rw [List.getD_eq_getElem?_getD, hcs]; rfl
          rw [e1]
          have e2 : (cs.map (rampEntry (s.time.scaled days t))).getD j 0 = rampEntry (s.time.scaled days t) cs[j] := by
            rw [List.getD_eq_getElem _ _ (by simpa using hj), List.getElem_map]
          rw [e2]
          ring
        · rw [getD_modify_ne _ _ _ _ _ (fun h => hk (Fin.ext h.symm)), if_neg hk, add_zero]
      rw [panelMean_trend hT hco]
      simp only [ha]
      split
      · ring
      · simp)
  have hprice : ∀ u : ℝ, panelPrice s m os b sd (bump θ "changepoint_coefficients" q u) - panelPrice s m os b sd θ
      = 2 * ((|δ + u| - |δ|) / b) := by
    intro u
    have e2 : bump θ "changepoint_coefficients" q u "offset" = θ "offset" := bump_ne (by decide)
    have e3 : ∀ n : String, bump θ "changepoint_coefficients" q u (n ++ "/coefs") = θ (n ++ "/coefs") :=
      fun n => bump_ne (coefs_site_ne _ (by decide))
    unfold panelPrice
    simp only [e2, e3]
    rw [hflat]
    ring
  have hsum : (ts.map fun t => ∑ k, a k t * weighedResidual (panelCovariance σ C) (fun i t => obs (ss.get i) t)
        (fun i t => panelMean days mode s ss (kept m.fitted) x θ (ss.get i) t) k t).sum = pull := by
    refine congrArg List.sum (List.map_congr_left fun t _ => ?_)
    rw [Finset.sum_eq_single i]
    · simp [ha]
    · intro k _ hk
      simp [ha, hk]
    · simp
  rw [hsum] at hmv
  refine slope_abs (B := weighedError (panelCovariance σ C) ts a (fun _ _ => 0) / 2) hb0 fun u => ?_
  have := hmv u
  rw [hprice] at this
  linarith

end

/-! ## A case -/

/-- Two products with different noise levels and correlated noise: a best fit exists, and its weighed residuals balance
the prior of both offsets and of every coefficient. -/
example : ∃ m s x θ, hierFitData exCfg114 exY113 (some exX113) = .ok m ∧
    BestPanel (fun _ _ _ => 0) 1 1 (1 / 10) (fun _ => normalLP 0 2) s m θ ∧ NoiseOf ![1, 2] exL46 θ ∧
    (∀ i : Fin 2, ([0, 1].map fun t => panelGain (fun _ => "additive") (kept m.fitted) x θ ([["p"], ["q"]].get i) t
        * weighedResidual (panelCovariance ![1, 2] exL46) (fun i t => cellAt exY113 ([["p"], ["q"]].get i) t "y")
          (fun i t => panelMean (fun t : ℤ => (t : ℝ)) (fun _ => "additive") s [["p"], ["q"]] (kept m.fitted) x θ
            ([["p"], ["q"]].get i) t) i t).sum
      = ((θ "offset").data.getD i 0 - s.offsetLoc.getD i 0) / (1 / 10) ^ 2) ∧
    ∀ fe ∈ kept m.fitted, ∀ (j : Nat) (hj : j < fe.cols.length),
      ([0, 1].map fun t => ∑ i : Fin 2, effectGain "additive"
          (panelTrendAt (fun t : ℤ => (t : ℝ)) s [["p"], ["q"]] θ ([["p"], ["q"]].get i) t)
        * cellAt x ([["p"], ["q"]].get i) t fe.cols[j]
        * weighedResidual (panelCovariance ![1, 2] exL46) (fun i t => cellAt exY113 ([["p"], ["q"]].get i) t "y")
          (fun i t => panelMean (fun t : ℤ => (t : ℝ)) (fun _ => "additive") s [["p"], ["q"]] (kept m.fitted) x θ
            ([["p"], ["q"]].get i) t) i t).sum
      = (θ (fe.name ++ "/coefs")).data.getD j 0 / 2 ^ 2 := by
  have hX := exExog113 (ts := [0, 1]) (by simp) (by simp) (by simp)
  have hc : ∀ c ∈ givenCols (some exX113), c ∉ exCfg114.shared → ∃ q, exCfg114.compile c = .ok q :=
    fun _ _ _ => ⟨_, rfl⟩
  have k1 : VectorSite (n := 2) ⟨[2], [1, 2]⟩ ![1, 2] := ⟨rfl, fun i => by fin_cases i <;> rfl⟩
  have k2 : ∀ i, (0 : ℝ) < ![1, 2] i := fun i => by fin_cases i <;> simp
  have k3 : MatrixSite (exθ90 "corr_matrix") exL46 := ⟨rfl, fun i j => by fin_cases i <;> fin_cases j <;> rfl⟩
  have hobs : Observed exY113 "y" fun a t => cellAt exY113 a t "y" :=
    fun r hr _ => cellAt_of_mem exPanel113.ordered hr (by simp [exY113])
  obtain ⟨m, s, h1, hs, h⟩ := C114_exists exValid114 exModes114 exPanel113 exSeries113 (by simp) exDates113
    (b := 1 / 10) rfl (by norm_num) hX hc
  obtain ⟨θ, h2, h3, h4⟩ := h (fun _ _ _ => 0) 1 1 (1 / 10) (fun _ => normalLP 0 2) (by norm_num)
    (fun _ => continuous_normalLP 0 2) (fun _ => tendsto_normalLP 0 two_ne_zero) ⟨[2], [1, 2]⟩
    (exθ90 "corr_matrix") ![1, 2] exL46 rfl k1 k2 k3 exL46_factor
  have hN : NoiseOf (n := 2) ![1, 2] exL46 θ := ⟨by rw [h2]; rfl, by rw [h2]; exact k1, k2, by rw [h3]; exact k3, exL46_factor⟩
  obtain ⟨x, s', hex, h', -⟩ := hier_posterior exValid114 exModes114 exPanel113 rfl hobs exSeries113 (by simp) exDates113
    trivial hX hc h1
  have := h'.state
  rw [hs] at this
  cases this
  refine ⟨m, s, x, θ, h1, h4, hN, fun i => ?_, fun fe hfe j hj => ?_⟩
  · exact C135_offset exValid114 exModes114 exPanel113 rfl hobs exSeries113 (by simp) exDates113 (b := 1 / 10) rfl hX hc
      h1 hs hex (sd := fun _ => 2) (by norm_num) hN h4 i
  · exact C135_effect exValid114 exModes114 exPanel113 rfl hobs exSeries113 (by simp) exDates113 (b := 1 / 10) rfl hX hc
      h1 hs hex (sd := fun _ => 2) hN h4 hfe two_ne_zero hj

end PV
