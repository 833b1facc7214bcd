import Verif.Props.PanelMoved
import Verif.Props.BestNoise

/-!
# C122: one series that is fitted exactly leaves a panel without a best fit

The hierarchical forecaster has a noise level per series. If some parameters fit the history of a single series
exactly (a series that is constant, for example one without any sales), the log posterior of the panel grows
beyond all bounds as the noise level of this series shrinks: maximum a posteriori inference has no answer for
any series of the panel.
-/

namespace PV
open Tensor Filter Matrix

section
variable {τ : Type} [LinearOrder τ] {days : τ → ℝ} {p : PiecewiseParams ℝ τ}
  {cfg : HierConfig (Option (PiecewiseState ℝ τ)) (Scale ℝ) τ (Tensor ℝ) ℝ} {mode : String → String}

/-- Specification: the noise of a panel of `n` series: positive noise levels and the factor of a correlation
matrix. -/
def PanelNoise (n : Nat) (θ : SiteEnv ℝ) : Prop :=
  ∃ (σ : Fin n → ℝ) (C : Matrix (Fin n) (Fin n) ℝ), (θ "std_observation").data.length = n ∧
    VectorSite (θ "std_observation") σ ∧ (∀ i, 0 < σ i) ∧ MatrixSite (θ "corr_matrix") C ∧ CorrFactor C

/-- Specification: no parameters, noise levels and correlation have a larger posterior density. -/
def BestOfPanels (n : Nat) (lkj : Nat → ℝ → Tensor ℝ → ℝ) (ns conc os : ℝ) (prior : String → ℝ → ℝ)
    (s : PiecewiseState ℝ τ) (m : HierFit (Option (PiecewiseState ℝ τ)) (Scale ℝ) τ (Tensor ℝ) ℝ)
    (θ : SiteEnv ℝ) : Prop :=
  HierSizes s m θ ∧ PanelNoise n θ ∧ ∃ l, hierDensity lkj ns conc os prior m θ = .ok l ∧
    ∀ θ' l', HierSizes s m θ' → PanelNoise n θ' → hierDensity lkj ns conc os prior m θ' = .ok l' → l' ≤ l

/-- The same parameters of the mean with independent noise of given levels. -/
def independentNoise {n : Nat} (θ : SiteEnv ℝ) (σ : Fin n → ℝ) : SiteEnv ℝ := fun nm =>
  if nm = "std_observation" then ⟨[n], List.ofFn σ⟩
  else if nm = "corr_matrix" then ⟨[n, n], List.ofFn fun k : Fin (n * n) => if (k : Nat) / n = k % n then 1 else 0⟩
  else θ nm

theorem independentNoise_std {n : Nat} (θ : SiteEnv ℝ) (σ : Fin n → ℝ) :
    (independentNoise θ σ "std_observation").data.length = n ∧
      VectorSite (independentNoise θ σ "std_observation") σ := by
  unfold independentNoise VectorSite
  simp

theorem independentNoise_corr {n : Nat} (θ : SiteEnv ℝ) (σ : Fin n → ℝ) :
    MatrixSite (independentNoise θ σ "corr_matrix") (1 : Matrix (Fin n) (Fin n) ℝ) := by
  unfold independentNoise MatrixSite
  refine ⟨by simp, fun i j => ?_⟩
  have hlt : (i : Nat) * n + j < n * n := by
    have := i.2; have := j.2
    calc (i : Nat) * n + j < i * n + n := by omega
      _ = (i + 1) * n := by ring
      _ ≤ n * n := Nat.mul_le_mul_right _ (by omega)
  have hn : 0 < n := i.pos
  have h1 : ((i : Nat) * n + j) / n = i := by
    rw [mul_comm, Nat.mul_add_div hn, Nat.div_eq_of_lt j.2, add_zero]
  have h2 : ((i : Nat) * n + j) % n = j := by
    rw [mul_comm, Nat.mul_add_mod, Nat.mod_eq_of_lt j.2]
  simp only [show ("corr_matrix" = "std_observation") = False by simp, if_false, if_true]
  rw [List.getElem?_ofFn, dif_pos hlt]
  simp only [h1, h2, Matrix.one_apply, Fin.ext_iff]

theorem independentNoise_mean {n : Nat} (θ : SiteEnv ℝ) (σ : Fin n → ℝ) {nm : String}
    (h1 : nm ≠ "std_observation") (h2 : nm ≠ "corr_matrix") : independentNoise θ σ nm = θ nm := by
  unfold independentNoise
  rw [if_neg h1, if_neg h2]

theorem independentNoise_coefs {n : Nat} (θ : SiteEnv ℝ) (σ : Fin n → ℝ) (nm : String) :
    independentNoise θ σ (nm ++ "/coefs") = θ (nm ++ "/coefs") :=
  independentNoise_mean θ σ (coefs_ne (by decide)) (coefs_ne (by decide))

theorem independentNoise_sizes {n : Nat} {s : PiecewiseState ℝ τ}
    {m : HierFit (Option (PiecewiseState ℝ τ)) (Scale ℝ) τ (Tensor ℝ) ℝ} {θ : SiteEnv ℝ} (h : HierSizes s m θ)
    (σ : Fin n → ℝ) : HierSizes s m (independentNoise θ σ) := by
  refine ⟨?_, fun fe hfe hne => ?_⟩
  · unfold PanelSites
    rw [independentNoise_mean _ _ (by decide) (by decide), independentNoise_mean _ _ (by decide) (by decide)]
    exact h.trend
  · rw [independentNoise_coefs]
    exact h.coefs fe hfe hne

theorem independentNoise_ok {n : Nat} (θ : SiteEnv ℝ) {σ : Fin n → ℝ} (hσ : ∀ i, 0 < σ i) :
    PanelNoise n (independentNoise θ σ) :=
  ⟨σ, 1, (independentNoise_std θ σ).1, (independentNoise_std θ σ).2, hσ, independentNoise_corr θ σ, corrFactor_one⟩

theorem panelCovariance_one {n : Nat} (σ : Fin n → ℝ) :
    panelCovariance σ (1 : Matrix (Fin n) (Fin n) ℝ) = diagonal fun i => σ i ^ 4 := by
  ext i j
  unfold panelCovariance
  by_cases hij : i = j
  · subst hij
    simp [Matrix.one_apply]
    ring
  · rw [diagonal_apply_ne _ hij]
    have : ∑ k, σ k ^ 2 * ((1 : Matrix (Fin n) (Fin n) ℝ) i k * (1 : Matrix (Fin n) (Fin n) ℝ) j k) = 0 := by
      refine Finset.sum_eq_zero fun k _ => ?_
      rcases eq_or_ne i k with rfl | h
      · rw [Matrix.one_apply_ne (Ne.symm hij)]; ring
      · rw [Matrix.one_apply_ne h]; ring
    rw [this, mul_zero]

theorem halfNormalLP_ge (ns : ℝ) {σ : ℝ} (h0 : 0 < σ) (h1 : σ ≤ 1) :
    Real.log 2 - 1 / (2 * ns ^ 2) - Real.log ns - Real.log (2 * Real.pi) / 2 ≤ halfNormalLP ns σ := by
  unfold halfNormalLP normalLP
  have : (σ - 0) ^ 2 / (2 * ns ^ 2) ≤ 1 / (2 * ns ^ 2) := by
    apply div_le_div_of_nonneg_right _ (by positivity)
    nlinarith
  linarith

/-- **C122**: if some parameters fit the history of one series exactly, the log posterior of the panel with
independent noise, level `σ` for this series and 1 for the others, grows beyond all bounds as `σ` shrinks. -/
theorem C122_unbounded (hV : ValidHier days p cfg) (hM : Modes mode cfg) {y : Frame String τ ℝ}
    (hy : RegularPanel y) {c : String} (hc : y.cols = [c]) {obs : List String → τ → ℝ} (hobs : Observed y c obs)
    {ss : List (List String)} (hss : SeriesOf y ss) (h2 : 2 ≤ ss.length) {ts : List τ} (hts : DatesOf y ts)
    (hp : p.priorScale.Fits ss.length) {X : Option (Frame String τ ℝ)} (hX : GivenExog X ss ts)
    (hcomp : ∀ c ∈ givenCols X, c ∉ cfg.shared → ∃ q, cfg.compile c = .ok q)
    {m : HierFit (Option (PiecewiseState ℝ τ)) (Scale ℝ) τ (Tensor ℝ) ℝ} (hfit : hierFitData cfg y X = .ok m) :
    ∃ x s, hierExog cfg (aggregate cfg.keep y) X = .ok (m.expand, x) ∧ m.trend.st.2 = some s ∧
      ∀ (lkj : Nat → ℝ → Tensor ℝ → ℝ) (ns conc os : ℝ) (prior : String → ℝ → ℝ) (θ : SiteEnv ℝ),
        HierSizes s m θ → ∀ i : Fin ss.length,
        (∀ t ∈ ts, panelMean days mode s ss (kept m.fitted) x θ (ss.get i) t = obs (ss.get i) t) →
        ∀ B : ℝ, ∃ ε, 0 < ε ∧ ∀ σ, 0 < σ → σ ≤ ε → ∃ L,
          hierDensity lkj ns conc os prior m (independentNoise θ fun k => if k = i then σ else 1) = .ok L ∧ B ≤ L := by
  obtain ⟨x, s, hex, h, -, -, hF⟩ := hier_posterior hV hM hy hc hobs hss h2 hts hp hX hcomp hfit
  refine ⟨x, s, hex, h.state, ?_⟩
  intro lkj ns conc os prior θ hθ i hexact B
  have hN : 0 < (ts.length : ℝ) := by
    obtain ⟨r, hr, -⟩ := hy.bottom
    have : ts ≠ [] := List.ne_nil_of_mem ((hts.mem r.time).2 ⟨r, hr, rfl⟩)
    exact_mod_cast List.length_pos_of_ne_nil this
  have hform : ∀ σ, 0 < σ → hierDensity lkj ns conc os prior m (independentNoise θ fun k => if k = i then σ else 1)
      = .ok (hierPrior os prior s (kept m.fitted) θ + ((∑ k, halfNormalLP ns (if k = i then σ else 1))
        + lkj ss.length conc ⟨[ss.length, ss.length], List.ofFn fun k : Fin (ss.length * ss.length) =>
            if (k : Nat) / ss.length = k % ss.length then 1 else 0⟩
        + ((ts.map fun t => -(∑ k, if k = i then 0 else
            (obs (ss.get k) t - panelMean days mode s ss (kept m.fitted) x θ (ss.get k) t) ^ 2) / 2
            - ss.length * Real.log (2 * Real.pi) / 2).sum - 2 * ts.length * Real.log σ))) := by
    intro σ h0
    have hσ : ∀ k : Fin ss.length, 0 < if k = i then σ else 1 := fun k => by split <;> linarith
    rw [hF lkj ns conc os prior _ (fun k => if k = i then σ else 1) 1 (independentNoise_sizes hθ _)
      (independentNoise_std θ _).1 (independentNoise_std θ _).2 hσ (independentNoise_corr θ _) corrFactor_one]
    congr 2
    · unfold hierPrior
      rw [independentNoise_mean _ _ (by decide) (by decide), independentNoise_mean _ _ (by decide) (by decide)]
      simp only [independentNoise_coefs]
    congr 1
    · unfold noisePart
      congr 1
      · unfold independentNoise
        rw [if_pos rfl]
        simp only [List.map_ofFn, List.sum_ofFn, Function.comp]
    · unfold hierLik
      have hmean : ∀ a t, panelMean days mode s ss (kept m.fitted) x
          (independentNoise θ fun k : Fin ss.length => if k = i then σ else 1) a t
          = panelMean days mode s ss (kept m.fitted) x θ a t := by
        intro a t
        unfold panelMean panelTrendAt seriesCoefs
        rw [independentNoise_mean _ _ (by decide) (by decide), independentNoise_mean _ _ (by decide) (by decide)]
        simp only [independentNoise_coefs]
      have key : ∀ t ∈ ts, normalDensity (fun k => panelMean days mode s ss (kept m.fitted) x
          (independentNoise θ fun k : Fin ss.length => if k = i then σ else 1) (ss.get k) t)
          (panelCovariance (fun k => if k = i then σ else 1) 1) (fun k => obs (ss.get k) t)
          = (-(∑ k, if k = i then 0 else
            (obs (ss.get k) t - panelMean days mode s ss (kept m.fitted) x θ (ss.get k) t) ^ 2) / 2
            - ss.length * Real.log (2 * Real.pi) / 2) + (- (2 * Real.log σ)) := by
        intro t ht
        rw [normalDensity_identity hσ]
        have e1 : Real.log (panelCovariance (fun k => if k = i then σ else 1)
            (1 : Matrix (Fin ss.length) (Fin ss.length) ℝ)).det = 4 * Real.log σ := by
          rw [panelCovariance_one, det_diagonal]
          have : ∀ k : Fin ss.length, (if k = i then σ else 1) ^ 4 = if k = i then σ ^ 4 else 1 := by
            intro k
            split <;> simp
          rw [Finset.prod_congr rfl fun k _ => this k, Finset.prod_ite_eq' Finset.univ i fun _ => σ ^ 4]
          simp
        rw [e1]
        have e2 : ∀ k : Fin ss.length, (obs (ss.get k) t - panelMean days mode s ss (kept m.fitted) x
            (independentNoise θ fun k : Fin ss.length => if k = i then σ else 1) (ss.get k) t) ^ 2
              / (if k = i then σ else 1) ^ 4 = if k = i then 0 else
            (obs (ss.get k) t - panelMean days mode s ss (kept m.fitted) x θ (ss.get k) t) ^ 2 := by
          intro k
          rw [hmean]
          split
          · next hk =>
            rw [hk, hexact t ht]
            simp
          · simp
        rw [Finset.sum_congr rfl fun k _ => e2 k]
        ring
      rw [List.map_congr_left key, List.sum_map_add]
      simp
      ring
  set P := hierPrior os prior s (kept m.fitted) θ
  set l := lkj ss.length conc ⟨[ss.length, ss.length], List.ofFn fun k : Fin (ss.length * ss.length) =>
            if (k : Nat) / ss.length = k % ss.length then 1 else 0⟩
  set S := (ts.map fun t => -(∑ k, if k = i then 0 else
            (obs (ss.get k) t - panelMean days mode s ss (kept m.fitted) x θ (ss.get k) t) ^ 2) / 2
            - ss.length * Real.log (2 * Real.pi) / 2).sum
  set H := Real.log 2 - 1 / (2 * ns ^ 2) - Real.log ns - Real.log (2 * Real.pi) / 2 with hH
  set Q := P + (ss.length * H + l + S)
  refine ⟨min 1 (Real.exp ((Q - B) / (2 * ts.length))), by positivity, fun σ h0 h1 => ⟨_, hform σ h0, ?_⟩⟩
  have k2 : σ ≤ 1 := h1.trans (min_le_left _ _)
  have k3 : Real.log σ ≤ (Q - B) / (2 * ts.length) :=
    (Real.log_le_iff_le_exp h0).2 (h1.trans (min_le_right _ _))
  rw [le_div_iff₀ (by positivity)] at k3
  have k4 : ss.length * H ≤ ∑ k : Fin ss.length, halfNormalLP ns (if k = i then σ else 1) := by
    have : ∑ _k : Fin ss.length, H = ss.length * H := by simp
    rw [← this]
    refine Finset.sum_le_sum fun k _ => ?_
    split
    · exact halfNormalLP_ge ns h0 k2
    · exact halfNormalLP_ge ns one_pos le_rfl
  simp only [Q] at k3
  linarith

/-- **C122**: then maximum a posteriori inference has no answer for the panel. -/
theorem C122_no_fit (hV : ValidHier days p cfg) (hM : Modes mode cfg) {y : Frame String τ ℝ}
    (hy : RegularPanel y) {c : String} (hc : y.cols = [c]) {obs : List String → τ → ℝ} (hobs : Observed y c obs)
    {ss : List (List String)} (hss : SeriesOf y ss) (h2 : 2 ≤ ss.length) {ts : List τ} (hts : DatesOf y ts)
    (hp : p.priorScale.Fits ss.length) {X : Option (Frame String τ ℝ)} (hX : GivenExog X ss ts)
    (hcomp : ∀ c ∈ givenCols X, c ∉ cfg.shared → ∃ q, cfg.compile c = .ok q)
    {m : HierFit (Option (PiecewiseState ℝ τ)) (Scale ℝ) τ (Tensor ℝ) ℝ} (hfit : hierFitData cfg y X = .ok m) :
    ∃ x s, hierExog cfg (aggregate cfg.keep y) X = .ok (m.expand, x) ∧ m.trend.st.2 = some s ∧
      ∀ (lkj : Nat → ℝ → Tensor ℝ → ℝ) (ns conc os : ℝ) (prior : String → ℝ → ℝ),
        (∃ θ, HierSizes s m θ ∧ ∃ a ∈ ss,
          ∀ t ∈ ts, panelMean days mode s ss (kept m.fitted) x θ a t = obs a t) →
        ¬ ∃ θ, BestOfPanels ss.length lkj ns conc os prior s m θ := by
  obtain ⟨x, s, hex, hs, h⟩ := C122_unbounded hV hM hy hc hobs hss h2 hts hp hX hcomp hfit
  refine ⟨x, s, hex, hs, ?_⟩
  rintro lkj ns conc os prior ⟨θ, hθ, a, ha, hexact⟩ ⟨θ', -, -, L, -, hmax⟩
  obtain ⟨i, hi⟩ := List.get_of_mem ha
  obtain ⟨ε, hε, hb⟩ := h lkj ns conc os prior θ hθ i (by rw [hi]; exact hexact) (L + 1)
  obtain ⟨L', hL', hle⟩ := hb ε hε le_rfl
  have := hmax _ L' (independentNoise_sizes hθ _) (independentNoise_ok θ fun k => by split <;> linarith) hL'
  linarith

/-- Parameters under which series `i` has the constant mean `k`. -/
def constantSites (i n cs : Nat) (k : ℝ) (cols : List (String × Nat)) : SiteEnv ℝ := fun nm =>
  if nm = "offset" then ⟨[n], (List.replicate n 0).set i k⟩
  else if nm = "changepoint_coefficients" then ⟨[cs], List.replicate cs 0⟩
  else match cols.find? fun q => q.1 ++ "/coefs" = nm with
    | some q => ⟨[q.2], List.replicate q.2 0⟩
    | none => ⟨[], []⟩

theorem dot_none (v : List ℝ) {w : List ℝ} (hw : ∀ z ∈ w, z = 0) : Tensor.dot v w = 0 := by
  unfold Tensor.dot
  refine List.sum_eq_zero fun z hz => ?_
  rw [List.mem_iff_getElem] at hz
  obtain ⟨i, hi, rfl⟩ := hz
  rw [List.getElem_zipWith, hw _ (List.getElem_mem _), mul_zero]

theorem trendAt_none (ρ : ℝ → ℝ → ℝ) (o : ℝ) (cs : List ℝ) {bs : List ℝ} (hb : ∀ z ∈ bs, z = 0) (t : ℝ) :
    trendAt ρ o cs bs t = o := by
  unfold trendAt
  rw [List.sum_eq_zero, add_zero]
  intro z hz
  rw [List.mem_iff_getElem] at hz
  obtain ⟨i, hi, rfl⟩ := hz
  rw [List.getElem_zipWith, hb _ (List.getElem_mem _), zero_mul]

theorem mem_splitLengths {α : Type} : ∀ {ns : List Nat} {l v : List α} {z : α}, v ∈ ns.splitLengths l → z ∈ v → z ∈ l
  | [], _, _, _, h, _ => by simp at h
  | n :: ns, l, v, z, h, hz => by
    rw [List.splitLengths_cons] at h
    rcases List.mem_cons.1 h with rfl | h
    · exact List.mem_of_mem_take hz
    · exact List.mem_of_mem_drop (mem_splitLengths h hz)

/-- **C122**: a panel with a series that is constant in training has no best fit. -/
theorem C122_constant (hV : ValidHier days p cfg) (hM : Modes mode cfg) {y : Frame String τ ℝ}
    (hy : RegularPanel y) {c : String} (hc : y.cols = [c])
    {ss : List (List String)} (hss : SeriesOf y ss) (h2 : 2 ≤ ss.length) {ts : List τ} (hts : DatesOf y ts)
    (hp : p.priorScale.Fits ss.length) {X : Option (Frame String τ ℝ)} (hX : GivenExog X ss ts)
    (hcomp : ∀ c ∈ givenCols X, c ∉ cfg.shared → ∃ q, cfg.compile c = .ok q)
    {a : List String} (ha : a ∈ ss) {k : ℝ} (hk : ∀ r ∈ y.rows, r.sid = a → r.val c = k)
    {m : HierFit (Option (PiecewiseState ℝ τ)) (Scale ℝ) τ (Tensor ℝ) ℝ} (hfit : hierFitData cfg y X = .ok m) :
    ∃ s, m.trend.st.2 = some s ∧ ∀ (lkj : Nat → ℝ → Tensor ℝ → ℝ) (ns conc os : ℝ) (prior : String → ℝ → ℝ),
      ¬ ∃ θ, BestOfPanels ss.length lkj ns conc os prior s m θ := by
  obtain ⟨i, hi⟩ := List.get_of_mem ha
  have hnd : ss.Nodup := hss.sorted.imp fun h => ne_of_lt h
  let obs : List String → τ → ℝ := fun a t => cellAt y a t c
  have hobs : Observed y c obs := fun r hr _ => cellAt_of_mem hy.ordered hr (by rw [hc]; simp)
  obtain ⟨x, s, hex, hs, h⟩ := C122_no_fit hV hM hy hc hobs hss h2 hts hp hX hcomp hfit
  obtain ⟨x', s', -, h', -⟩ := hier_posterior hV hM hy hc hobs hss h2 hts hp hX hcomp hfit
  have hss' := h'.state
  rw [hs] at hss'
  cases hss'
  refine ⟨s, hs, fun lkj ns conc os prior => h lkj ns conc os prior ?_⟩
  let θ := constantSites i ss.length (s.cps.map List.length).sum k (m.fitted.map fun fe => (fe.name, fe.cols.length))
  have hcoef : ∀ fe ∈ m.fitted, (θ (fe.name ++ "/coefs")).data = List.replicate fe.cols.length 0 := by
    intro fe hfe
    have hf : (m.fitted.map fun fe => (fe.name, fe.cols.length)).find?
        (fun q => q.1 ++ "/coefs" = fe.name ++ "/coefs") = some (fe.name, fe.cols.length) := by
      cases hq : (m.fitted.map fun fe => (fe.name, fe.cols.length)).find?
          (fun q => q.1 ++ "/coefs" = fe.name ++ "/coefs") with
      | none =>
        have := List.find?_eq_none.1 hq (fe.name, fe.cols.length) (List.mem_map.2 ⟨fe, hfe, rfl⟩)
        simp at this
      | some q =>
        have k1 := List.find?_some hq
        obtain ⟨fe', hfe', rfl⟩ := List.mem_map.1 (List.mem_of_find?_eq_some hq)
        have k2 : fe'.name = fe.name := coefs_inj (by simpa using k1)
        have k3 : fe' = fe := List.inj_on_of_nodup_map h'.nodup hfe' hfe k2
        rw [k3]
    simp only [θ, constantSites]
    rw [if_neg (coefs_ne (by decide)), if_neg (coefs_ne (by decide)), hf]
  have hoff : θ "offset" = ⟨[ss.length], (List.replicate ss.length 0).set i k⟩ := by
    simp [θ, constantSites]
  have hcps : θ "changepoint_coefficients" = ⟨[(s.cps.map List.length).sum],
      List.replicate (s.cps.map List.length).sum 0⟩ := by
    simp [θ, constantSites]
  refine ⟨θ, ⟨⟨by rw [hoff, h'.changepoints]; simp, by rw [hcps]; simp⟩, fun fe hfe _ => by rw [hcoef fe hfe]; simp⟩,
    a, ha, fun t ht => ?_⟩
  have htrend : panelTrendAt days s ss θ a t = k := by
    unfold panelTrendAt seriesCoefs
    have hidx : ss.idxOf a = i := by
      rw [← hi]
      exact List.Nodup.idxOf_getElem hnd _ _
    rw [trendAt_none, hoff, hidx]
    · simp
    · intro z hz
      rw [List.getD_eq_getElem?_getD] at hz
      cases hg : ((s.cps.map List.length).splitLengths (θ "changepoint_coefficients").data)[ss.idxOf a]? with
      | none => rw [hg] at hz; simp at hz
      | some v =>
        rw [hg] at hz
        have := mem_splitLengths (List.mem_of_getElem? hg) hz
        rw [hcps] at this
        exact List.eq_of_mem_replicate this
  unfold panelMean
  rw [htrend, List.sum_eq_zero, add_zero]
  · obtain ⟨r0, hr0, h0⟩ := ((hss.mem a).1 ha).2
    obtain ⟨r1, hr1, h1⟩ := (hts.mem t).1 ht
    obtain ⟨q, hq, e1, e2⟩ := hy.regular r0 hr0 r1 hr1
    have := cellAt_of_mem hy.ordered hq (c := c) (by rw [hc]; simp)
    simp only [obs]
    rw [e1, e2, h0, h1] at this
    rw [this, hk q hq (e1.trans h0)]
  · intro z hz
    obtain ⟨fe, hfe, rfl⟩ := List.mem_map.1 hz
    rw [hcoef fe (List.mem_filter.1 hfe).1, dot_none _ fun z hz => List.eq_of_mem_replicate hz]
    unfold combine
    split <;> simp

/-! ## A case -/

/-- The panel of `exY113` in which nothing is ever sold of `q`. -/
noncomputable def exY122 : Frame String ℤ ℝ :=
  ⟨2, ["y"], [("p", 0, 1), ("p", 1, 3), ("q", 0, 0), ("q", 1, 0)].map fun r => ⟨[r.1], r.2.1, fun _ => r.2.2⟩⟩

theorem exPanel122 : RegularPanel exY122 where
  wf := by
    intro r hr
    simp only [exY122, List.map_cons, List.map_nil, List.mem_cons, List.not_mem_nil, or_false] at hr
    rcases hr with rfl | rfl | rfl | rfl <;> rfl
  levels := by decide
  column := ⟨"y", rfl⟩
  ordered := by
    unfold TimeSorted exY122
    simp
  regular := by
    intro r hr r' hr'
    simp only [exY122, List.map_cons, List.map_nil, List.mem_cons, List.not_mem_nil, or_false] at hr hr'
    rcases hr with rfl | rfl | rfl | rfl <;> rcases hr' with rfl | rfl | rfl | rfl <;> simp [exY122]
  bottom := ⟨⟨["p"], 0, fun _ => 1⟩, by simp [exY122], by simp⟩
  twoDates := ⟨⟨["p"], 0, fun _ => 1⟩, by simp [exY122], ⟨["p"], 1, fun _ => 3⟩, by simp [exY122], by simp⟩

theorem exSeries122 : SeriesOf exY122 [["p"], ["q"]] where
  sorted := exSeries113.sorted
  mem := by
    intro s
    simp only [exY122, List.map_cons, List.map_nil, List.mem_cons, List.not_mem_nil, or_false,
      exists_eq_or_imp, exists_eq_left]
    constructor
    · rintro (rfl | rfl) <;> simp
    · rintro ⟨h, h' | h' | h' | h'⟩ <;> subst h' <;> simp

theorem exDates122 : DatesOf exY122 [0, 1] where
  sorted := by simp
  mem := by
    intro t
    simp only [exY122, List.map_cons, List.map_nil, List.mem_cons, List.not_mem_nil, or_false,
      exists_eq_or_imp, exists_eq_left]
    omega

/-- A product without sales: the panel is fitted without an error, but has no best fit. -/
example : ∃ m s, hierFitData exCfg114 exY122 (some exX113) = .ok m ∧ m.trend.st.2 = some s ∧
    ¬ ∃ θ, BestOfPanels 2 (fun _ _ _ => 0) 1 1 (1 / 10) (fun _ => normalLP 0 1) s m θ := by
  have hX := exExog113 (ts := [0, 1]) (by simp) (by simp) (by simp)
  have hc : ∀ c ∈ givenCols (some exX113), c ∉ exCfg114.shared → ∃ q, exCfg114.compile c = .ok q :=
    fun _ _ _ => ⟨_, rfl⟩
  obtain ⟨m, hm⟩ := C113_fits exValid114 exPanel122 exSeries122 exDates122 hX hc
  obtain ⟨s, hs, h⟩ := C122_constant exValid114 exModes114 exPanel122 rfl exSeries122 (by simp) exDates122
    trivial hX hc (a := ["q"]) (by simp) (k := 0) (by
      intro r hr hq
      simp only [exY122, List.map_cons, List.map_nil, List.mem_cons, List.not_mem_nil, or_false] at hr
      rcases hr with rfl | rfl | rfl | rfl <;> simp at hq ⊢) hm
  exact ⟨m, s, hm, hs, h _ _ _ _ _⟩

end
end PV
