import Verif.Props.Coherence
import Verif.Props.Spread

/-!
# C138: the spread of the forecasts of an aggregate

Forecast samples of an aggregate are sums of forecast samples of the series below it, so their spread depends on
how the noise of these series is correlated.
-/

set_option linter.unusedSectionVars false

namespace PV
open MeasureTheory ProbabilityTheory Set Tensor

/-! ## Specification -/

/-- The series below the node `p` of the hierarchy. -/
def below (ss : List (List String)) (p : List String) : Finset (Fin ss.length) :=
  Finset.univ.filter fun i => p <+: ss.get i

/-- The variance of a weighted sum of numbers with covariance `S`, over the members of `B`. -/
noncomputable def sumVariance {n : Nat} (B : Finset (Fin n)) (c : Fin n → ℝ) (S : Fin n → Fin n → ℝ) : ℝ :=
  ∑ i ∈ B, ∑ j ∈ B, c i * c j * S i j

/-- The vector `X` is drawn from the density `exp (mvnLP loc S)` on `ℝⁿ`. -/
def VectorDrawn {Ω : Type} [MeasurableSpace Ω] (P : Measure Ω) {n : Nat} (X : Ω → Fin n → ℝ) (loc : Fin n → ℝ)
    (S : Matrix (Fin n) (Fin n) ℝ) : Prop :=
  HasLaw X (volume.withDensity fun y => ENNReal.ofReal (Real.exp (mvnLP loc S y))) P

/-! ## Lemmas -/

theorem sum_filter_list {α : Type} (q : α → Prop) [DecidablePred q] (G : α → ℝ) : ∀ l : List α,
    ((l.filter fun s => q s).map G).sum = ∑ i : Fin l.length, if q (l.get i) then G (l.get i) else 0
  | [] => by simp
  | a :: l => by
    rw [List.filter_cons]
    have ih := sum_filter_list q G l
    rw [show (∑ i : Fin (a :: l).length, if q ((a :: l).get i) then G ((a :: l).get i) else 0)
        = (if q a then G a else 0) + ∑ i : Fin l.length, if q (l.get i) then G (l.get i) else 0 from
      Fin.sum_univ_succ (n := l.length) fun i => if q ((a :: l).get i) then G ((a :: l).get i) else 0, ← ih]
    by_cases h : q a
    · simp [h]
    · simp [h]

section
variable {Ω τ : Type} [MeasurableSpace Ω] {P : Measure Ω} [IsProbabilityMeasure P] [LinearOrder τ]

/-- The sum over the series below a node, in terms of the draws. -/
theorem sumBelow_draws {ctx : Fitted ℝ} {obs : Tensor ℝ} {fh : List τ} {f : Frame Nat τ ℝ} {N k : ℕ}
    (hw : obs.WF)
    (hsh : obs.shape = N :: (List.replicate k 1 ++ [fh.length, (forecastSeries ctx).length]))
    (hfh : fh.Nodup) (h : predictSamples ctx obs fh = .ok f) {t : ℕ} {time : τ}
    (ht : fh[t]? = some time) {c : Fin (forecastSeries ctx).length → ℝ}
    (hc : ∀ i, ScaleIs ctx ((forecastSeries ctx).get i) (c i)) {D : ℕ → Fin (forecastSeries ctx).length → ℝ}
    (hD : ∀ n < N, ∀ i : Fin (forecastSeries ctx).length, obs.get? (n :: (List.replicate k 0 ++ [t, (i : Nat)])) = some (D n i))
    (p : List String) {n : ℕ} (hn : n < N) :
    sumBelow f p time n = ∑ i ∈ below (forecastSeries ctx) p, c i * D n i := by
  obtain ⟨hperm, -, hnd, -, -⟩ := C09_index hsh h
  have hnd := hnd hfh
  have hss := (C09_series ctx []).1
  obtain ⟨hcols, -⟩ := C06_sample_alignment hw hsh h
  set G : List String → ℝ := fun s => if hs : (forecastSeries ctx).idxOf s < (forecastSeries ctx).length then c ⟨_, hs⟩ * D n ⟨_, hs⟩ else 0 with hG
  have hGi : ∀ i : Fin (forecastSeries ctx).length, G ((forecastSeries ctx).get i) = c i * D n i := by
    intro i
    have hidx : (forecastSeries ctx).idxOf ((forecastSeries ctx).get i) = i := List.Nodup.idxOf_getElem hss _ _
    simp only [hG]
    rw [dif_pos (by rw [hidx]; exact i.2)]
    have : (⟨(forecastSeries ctx).idxOf ((forecastSeries ctx).get i), by rw [hidx]; exact i.2⟩ : Fin (forecastSeries ctx).length) = i := Fin.ext hidx
    rw [this]
  -- every row at this date holds its own draw
  have hrow : ∀ r ∈ f.rows, r.time = time → r.val n = G r.sid := by
    intro r hr hrt
    have hmem : (r.sid, r.time) ∈ product (forecastSeries ctx) fh := hperm.mem_iff.1 (List.mem_map.2 ⟨r, hr, rfl⟩)
    obtain ⟨i, hi, hie⟩ := List.mem_iff_getElem.1 (mem_product.1 hmem).1
    simp only at hie
    obtain ⟨-, hv⟩ := row_draws hw hsh hfh h (i := i) (sid := r.sid) (by rw [← hie]; exact List.getElem?_eq_getElem hi)
      ht (c := c ⟨i, hi⟩) (by rw [← hie]; exact hc ⟨i, hi⟩) (D := fun n => D n ⟨i, hi⟩) fun n hn => hD n hn ⟨i, hi⟩
    have := congrArg (fun l => l[n]?) (hv r hr rfl hrt)
    rw [hcols] at this
    simp only [List.getElem?_map, List.getElem?_range hn, Option.map_some, List.getElem?_ofFn, dif_pos hn,
      Option.some.injEq] at this
    rw [this, ← hie]
    exact (hGi ⟨i, hi⟩).symm
  have e1 : sumBelow f p time n = ((f.index.filter fun z => p <+: z.1 ∧ z.2 = time).map fun z => G z.1).sum := by
    unfold sumBelow Frame.index
    rw [List.filter_map, List.map_map]
    refine congrArg List.sum (List.map_congr_left fun r hr => ?_)
    obtain ⟨h1, h2⟩ := List.mem_filter.1 hr
    simp only [decide_eq_true_eq] at h2
    exact hrow r h1 h2.2
  have e2 : (f.index.filter fun z => p <+: z.1 ∧ z.2 = time).Perm
      (((forecastSeries ctx).filter fun s => p <+: s).map fun s => (s, time)) := by
    refine (List.perm_ext_iff_of_nodup (hnd.filter _) ((hss.filter _).map fun a b h => (Prod.mk.inj h).1)).2 ?_
    rintro ⟨s, u⟩
    rw [List.mem_filter, hperm.mem_iff, mem_product, List.mem_map]
    simp only [decide_eq_true_eq, List.mem_filter, Prod.mk.injEq]
    constructor
    · rintro ⟨⟨h1, -⟩, h2, rfl⟩
      exact ⟨s, ⟨h1, h2⟩, rfl, rfl⟩
    · rintro ⟨s', ⟨h1, h2⟩, rfl, rfl⟩
      exact ⟨⟨h1, List.mem_of_getElem? ht⟩, h2, rfl⟩
  rw [e1, (e2.map fun z => G z.1).sum_eq, List.map_map]
  have e3 := sum_filter_list (fun s => p <+: s) G (forecastSeries ctx)
  refine (Eq.trans ?_ e3).trans ?_
  · rfl
  · unfold below
    rw [Finset.sum_filter]
    exact Finset.sum_congr rfl fun i _ => by rw [hGi]

/-- Moments of a weighted sum. -/
theorem weighted_moments {n : Nat} {X : Fin n → Ω → ℝ} {m : Fin n → ℝ} {S : Fin n → Fin n → ℝ}
    (hX : ∀ i, MemLp (X i) 2 P) (hm : ∀ i, ∫ ω, X i ω ∂P = m i) (hS : ∀ i j, cov[X i, X j; P] = S i j)
    (B : Finset (Fin n)) (c : Fin n → ℝ) :
    MemLp (fun ω => ∑ i ∈ B, c i * X i ω) 2 P ∧ ∫ ω, ∑ i ∈ B, c i * X i ω ∂P = ∑ i ∈ B, c i * m i ∧
      Var[fun ω => ∑ i ∈ B, c i * X i ω; P] = sumVariance B c S := by
  have h1 : ∀ i, MemLp (fun ω => c i * X i ω) 2 P := fun i => (hX i).const_mul _
  have h2 : MemLp (fun ω => ∑ i ∈ B, c i * X i ω) 2 P := memLp_finsetSum _ fun i _ => h1 i
  refine ⟨h2, ?_, ?_⟩
  · rw [integral_finsetSum _ fun i _ => (h1 i).integrable (by norm_num)]
    exact Finset.sum_congr rfl fun i _ => by rw [integral_const_mul, hm]
  · rw [← covariance_self h2.aestronglyMeasurable.aemeasurable,
      covariance_fun_sum_fun_sum' (fun i _ => h1 i) fun i _ => h1 i]
    unfold sumVariance
    refine Finset.sum_congr rfl fun i _ => Finset.sum_congr rfl fun j _ => ?_
    rw [covariance_const_mul_left, covariance_const_mul_right, hS]
    ring

/-- Numbers drawn jointly from the density of one date. -/
theorem vector_moments {n : Nat} {X : Ω → Fin n → ℝ} {loc std : Fin n → ℝ} {L : Matrix (Fin n) (Fin n) ℝ}
    (hs : ∀ i, 0 < std i) (hL : CorrFactor L) (h : VectorDrawn P X loc (obsScaleTril std L)) :
    (∀ i, MemLp (fun ω => X ω i) 2 P) ∧ (∀ i, ∫ ω, X ω i ∂P = loc i) ∧
      ∀ i j, cov[fun ω => X ω i, fun ω => X ω j; P] = mvnCovariance (obsScaleTril std L) i j := by
  obtain ⟨h1, h2, h3⟩ := C102_panel loc hs hL
  set f : (Fin n → ℝ) → ℝ := fun y => Real.exp (mvnLP loc (obsScaleTril std L) y) with hf'
  have hf : Measurable f := by
    have : Continuous f := by
      simp only [hf', mvnLP]
      fun_prop
    exact this.measurable
  have hF : Measurable fun y => ENNReal.ofReal (f y) := hf.ennreal_ofReal
  have hlt : ∀ᵐ y ∂(volume : Measure (Fin n → ℝ)), ENNReal.ofReal (f y) < ⊤ :=
    Filter.Eventually.of_forall fun _ => ENNReal.ofReal_lt_top
  have htr : ∀ y, (ENNReal.ofReal (f y)).toReal = f y := fun y => ENNReal.toReal_ofReal (Real.exp_pos _).le
  have hint : ∀ g : (Fin n → ℝ) → ℝ, ∫ y, g y ∂(volume.withDensity fun y => ENNReal.ofReal (f y))
      = ∫ y, g y * f y := by
    intro g
    rw [integral_withDensity_eq_integral_toReal_smul hF hlt]
    simp only [htr, smul_eq_mul, mul_comm]
  have hX : HasLaw X (volume.withDensity fun y => ENNReal.ofReal (f y)) P := h
  have hcov : ∀ i, 0 < mvnCovariance (obsScaleTril std L) i i := by
    intro i
    have hp : 0 < obsScaleTril std L i i := by
      rw [obsScaleTril_apply]
      have := hL.diag i
      have := hs i
      positivity
    rw [mvnCovariance, Matrix.mul_apply]
    refine Finset.sum_pos' (fun j _ => mul_self_nonneg _) ⟨i, Finset.mem_univ _, mul_pos hp hp⟩
  have hXm : ∀ i, MemLp (fun ω => X ω i - loc i) 2 P := by
    intro i
    have hL2 : MemLp (fun y : Fin n → ℝ => y i - loc i) 2 (volume.withDensity fun y => ENNReal.ofReal (f y)) := by
      refine (memLp_two_iff_integrable_sq (Continuous.aestronglyMeasurable (by fun_prop))).2 ?_
      rw [integrable_withDensity_iff hF hlt]
      simp only [htr]
      by_contra hn
      have := h3 i i
      simp only [← pow_two] at this
      rw [integral_undef hn] at this
      exact (hcov i).ne this
    have := hX.map_eq ▸ hL2
    exact this.comp_of_map hX.aemeasurable
  have hX2 : ∀ i, MemLp (fun ω => X ω i) 2 P := by
    intro i
    have := (hXm i).add (memLp_const (loc i))
    refine this.congr_norm ((measurable_pi_apply i).comp_aemeasurable hX.aemeasurable).aestronglyMeasurable ?_
    filter_upwards with ω
    simp
  have hmean : ∀ i, ∫ ω, X ω i ∂P = loc i := by
    intro i
    have := hX.integral_comp (f := fun y => y i) (Continuous.aestronglyMeasurable (by fun_prop))
    simp only [Function.comp_def] at this
    rw [this, hint]
    exact h2 i
  refine ⟨hX2, hmean, fun i j => ?_⟩
  rw [covariance, hmean i, hmean j]
  have := hX.integral_comp (f := fun y => (y i - loc i) * (y j - loc j)) (Continuous.aestronglyMeasurable (by fun_prop))
  simp only [Function.comp_def] at this
  rw [this, hint]
  exact h3 i j

/-- What is fixed when a panel is forecast with `N` draws: `D n` holds draw `n` of all the series at the date of
number `t`, and `c` the scale of each series. The rows of aggregates are those of `keep`. -/
structure PanelDraws (P : Measure Ω) (keep : List String → Bool) (ctx : Fitted ℝ) (obs : Ω → Tensor ℝ)
    (fh : List τ) (f : Ω → Frame Nat τ ℝ) (N t : ℕ) (time : τ) (c : Fin (forecastSeries ctx).length → ℝ)
    (D : ℕ → Ω → Fin (forecastSeries ctx).length → ℝ) : Prop where
  two : 2 ≤ N
  hier : ctx.hierarchical = true
  levels : ctx.yNlevels ≠ 1
  label : ∀ s ∈ ctx.internalSids, s.length + 1 = ctx.yNlevels
  reserved : ∀ s ∈ ctx.internalSids, s.getLast? ≠ some "__total" → "__total" ∉ s
  wf : ∀ ω, (obs ω).WF
  shape : ∃ k, (∀ ω, (obs ω).shape = N :: (List.replicate k 1 ++ [fh.length, (forecastSeries ctx).length])) ∧
    ∀ n < N, ∀ ω, ∀ i : Fin (forecastSeries ctx).length,
      (obs ω).get? (n :: (List.replicate k 0 ++ [t, (i : Nat)])) = some (D n ω i)
  nodup : fh.Nodup
  ok : ∀ ω, predictSamplesHier keep ctx (obs ω) fh = .ok (f ω)
  date : fh[t]? = some time
  scale : ∀ i, ScaleIs ctx ((forecastSeries ctx).get i) (c i)
  indep : ∀ n < N, ∀ n' < N, n ≠ n' → IndepFun (D n) (D n') P

/-- The samples of one aggregate and date, as functions of the draws. -/
theorem aggregate_draws {keep : List String → Bool} {ctx : Fitted ℝ} {obs : Ω → Tensor ℝ} {fh : List τ}
    {f : Ω → Frame Nat τ ℝ} {N t : ℕ} {time : τ} {c : Fin (forecastSeries ctx).length → ℝ}
    {D : ℕ → Ω → Fin (forecastSeries ctx).length → ℝ} (h : PanelDraws P keep ctx obs fh f N t time c D)
    {p q : List String} (hp : "__total" ∉ p) (hq : q ≠ []) (hpq : p ++ q ∈ forecastSeries ctx)
    (hkeep : keep (p ++ List.replicate q.length "__total") = true) (ω : Ω) :
    (∃ r ∈ (f ω).rows, r.sid = p ++ List.replicate q.length "__total" ∧ r.time = time) ∧
      ∀ r ∈ (f ω).rows, r.sid = p ++ List.replicate q.length "__total" → r.time = time →
        (f ω).cols.map r.val = List.ofFn fun n : Fin N => ∑ i ∈ below (forecastSeries ctx) p, c i * D n ω i := by
  obtain ⟨k, hsh, hD⟩ := h.shape
  obtain ⟨m, hm⟩ : ∃ m, q.length = m + 1 := ⟨q.length - 1, by have := List.length_pos_of_ne_nil hq; omega⟩
  have hok := h.ok ω
  obtain ⟨g, hg, -, hsum⟩ := C10_predict_coherent (hsh ω) h.hier h.levels h.label h.reserved hok
  have hout : f ω = aggregate keep g := by
    unfold predictSamplesHier at hok
    rw [hg] at hok
    exact (Except.ok.inj hok).symm
  obtain ⟨hperm, -, -, -, -⟩ := C09_index (hsh ω) hg
  obtain ⟨hcols, -⟩ := C06_sample_alignment (h.wf ω) (hsh ω) hg
  -- the rows handed to the aggregation carry the labels of the series
  have hmem : ∀ r ∈ g.rows, r.sid ∈ ctx.internalSids ∧ r.sid.getLast? ≠ some "__total" := by
    intro r hr
    have h1 : r.sid ∈ forecastSeries ctx := (mem_product.1 (hperm.mem_iff.1 (List.mem_map.2 ⟨r, hr, rfl⟩))).1
    unfold forecastSeries at h1
    rw [if_neg h.levels, h.hier] at h1
    simp only [Bool.true_and, List.mem_filter, mem_unique, Bool.not_eq_true'] at h1
    exact ⟨h1.1, by simpa using h1.2⟩
  have hnl : g.nlevels = ctx.yNlevels := by
    obtain ⟨-, g0, hg0, hinv⟩ := predictSamples_unfold (hsh ω) hg
    obtain ⟨-, hnl, -, -, -⟩ := frameOfMatrix_ok hg0
    obtain ⟨σ, rfl, -⟩ := invScale_eq hinv
    simp [Frame.mapVals, sortIndex, hnl]
  have hw : g.WF := fun r hr => by rw [hnl]; exact h.label _ (hmem r hr).1
  have hres : NoReserved g := fun r hr => h.reserved _ (hmem r hr).1 (hmem r hr).2
  obtain ⟨r0, hr0, hr0e⟩ := List.mem_map.1 (hperm.mem_iff.2 (mem_product.2
    ⟨hpq, List.mem_of_getElem? h.date⟩) : (p ++ q, time) ∈ g.index)
  simp only [Prod.mk.injEq] at hr0e
  constructor
  · obtain ⟨r, hr, e1, e2⟩ := C10_aggregates_present hw (hnl ▸ h.levels) hres hr0 hr0e.1 hq hkeep
    exact ⟨r, hout ▸ hr, e1, e2.trans hr0e.2⟩
  · intro r hr e1 e2
    have hc : (f ω).cols = g.cols := by
      rw [hout]
      unfold aggregate
      rw [if_neg (hnl ▸ h.levels)]
      rfl
    rw [hc, hcols]
    refine List.ext_getElem (by simp) fun n h1 h2 => ?_
    have hn : n < N := by simpa using h1
    simp only [List.getElem_map, List.getElem_range, List.getElem_ofFn]
    rw [hsum r hr p m hp (by rw [e1, hm]) n, e2]
    exact sumBelow_draws (h.wf ω) (hsh ω) h.nodup hg h.date h.scale (fun n hn i => hD n hn ω i) p hn

/-- The weights of the series of one aggregate. -/
theorem measurable_weighted {n : Nat} (B : Finset (Fin n)) (c : Fin n → ℝ) :
    Measurable fun y : Fin n → ℝ => ∑ i ∈ B, c i * y i := by
  fun_prop

/-- **C138.** If the draws of different numbers are independent, and draw `n` of the series has the means `m n` and
the covariances `S n`, then the sample variance of the forecast samples of an aggregate is on average the sum of
two parts: the average over the draws of the variance of the weighted sum of the series below the aggregate, in
which every pair of these series enters with its covariance, and the sample variance of the weighted sum of the
means. The weights are the scales of the series. -/
theorem C138_aggregate {keep : List String → Bool} {ctx : Fitted ℝ} {obs : Ω → Tensor ℝ} {fh : List τ}
    {f : Ω → Frame Nat τ ℝ} {N t : ℕ} {time : τ} {c : Fin (forecastSeries ctx).length → ℝ}
    {D : ℕ → Ω → Fin (forecastSeries ctx).length → ℝ} (h : PanelDraws P keep ctx obs fh f N t time c D)
    {m : ℕ → Fin (forecastSeries ctx).length → ℝ}
    {S : ℕ → Fin (forecastSeries ctx).length → Fin (forecastSeries ctx).length → ℝ}
    (hX : ∀ n < N, ∀ i, MemLp (fun ω => D n ω i) 2 P) (hm : ∀ n < N, ∀ i, ∫ ω, D n ω i ∂P = m n i)
    (hS : ∀ n < N, ∀ i j, cov[fun ω => D n ω i, fun ω => D n ω j; P] = S n i j)
    {p q : List String} (hp : "__total" ∉ p) (hq : q ≠ []) (hpq : p ++ q ∈ forecastSeries ctx)
    (hkeep : keep (p ++ List.replicate q.length "__total") = true) :
    SampleVariance P f (p ++ List.replicate q.length "__total") time
      (avgOf N (fun n => sumVariance (below (forecastSeries ctx) p) c (S n))
        + spreadOf N fun n => ∑ i ∈ below (forecastSeries ctx) p, c i * m n i) := by
  have hmv := fun n (hn : n < N) => weighted_moments (hX n hn) (hm n hn) (hS n hn) (below (forecastSeries ctx) p) c
  obtain ⟨h1, h2⟩ := spread_mean h.two hmv fun n hn n' hn' hne =>
    (h.indep n hn n' hn' hne).comp (measurable_weighted _ c) (measurable_weighted _ c)
  refine ⟨_, fun ω => ?_, h1, h2⟩
  obtain ⟨h3, h4⟩ := aggregate_draws h hp hq hpq hkeep ω
  refine ⟨h3, fun r hr e1 e2 => ?_⟩
  rw [h4 r hr e1 e2]
  have := sampleVar_ofFn N 1 fun n => ∑ i ∈ below (forecastSeries ctx) p, c i * D n ω i
  simpa using this

/-- **C138**, as drawn by the forecaster: at draw `n` of the parameters the series have the means `m n`, the
noises `σ n` and the Cholesky factor `L n`. -/
theorem C138_normal {keep : List String → Bool} {ctx : Fitted ℝ} {obs : Ω → Tensor ℝ} {fh : List τ}
    {f : Ω → Frame Nat τ ℝ} {N t : ℕ} {time : τ} {c : Fin (forecastSeries ctx).length → ℝ}
    {D : ℕ → Ω → Fin (forecastSeries ctx).length → ℝ} (h : PanelDraws P keep ctx obs fh f N t time c D)
    {m σ : ℕ → Fin (forecastSeries ctx).length → ℝ}
    {L : ℕ → Matrix (Fin (forecastSeries ctx).length) (Fin (forecastSeries ctx).length) ℝ}
    (hσ : ∀ n < N, ∀ i, 0 < σ n i) (hL : ∀ n < N, CorrFactor (L n))
    (hD : ∀ n < N, VectorDrawn P (D n) (m n) (obsScaleTril (σ n) (L n)))
    {p q : List String} (hp : "__total" ∉ p) (hq : q ≠ []) (hpq : p ++ q ∈ forecastSeries ctx)
    (hkeep : keep (p ++ List.replicate q.length "__total") = true) :
    SampleVariance P f (p ++ List.replicate q.length "__total") time
      (avgOf N (fun n => sumVariance (below (forecastSeries ctx) p) c fun i j =>
          σ n i * σ n j * ∑ k, σ n k ^ 2 * L n i k * L n j k)
        + spreadOf N fun n => ∑ i ∈ below (forecastSeries ctx) p, c i * m n i) := by
  have hv := fun n (hn : n < N) => vector_moments (hσ n hn) (hL n hn) (hD n hn)
  refine C138_aggregate h (fun n hn => (hv n hn).1) (fun n hn => (hv n hn).2.1) (fun n hn i j => ?_) hp hq hpq hkeep
  rw [(hv n hn).2.2 i j, mvnCovariance, Matrix.mul_apply, Finset.mul_sum]
  refine Finset.sum_congr rfl fun k _ => ?_
  rw [Matrix.transpose_apply, obsScaleTril_apply, obsScaleTril_apply]
  ring

/-- **C138**, MAP inference: all the draws share the parameters, so only the noise is left, and the spread is the
same at every date at which the parameters are the same. -/
theorem C138_map {keep : List String → Bool} {ctx : Fitted ℝ} {obs : Ω → Tensor ℝ} {fh : List τ}
    {f : Ω → Frame Nat τ ℝ} {N t : ℕ} {time : τ} {c : Fin (forecastSeries ctx).length → ℝ}
    {D : ℕ → Ω → Fin (forecastSeries ctx).length → ℝ} (h : PanelDraws P keep ctx obs fh f N t time c D)
    {m σ : Fin (forecastSeries ctx).length → ℝ}
    {L : Matrix (Fin (forecastSeries ctx).length) (Fin (forecastSeries ctx).length) ℝ}
    (hσ : ∀ i, 0 < σ i) (hL : CorrFactor L)
    (hD : ∀ n < N, VectorDrawn P (D n) m (obsScaleTril σ L))
    {p q : List String} (hp : "__total" ∉ p) (hq : q ≠ []) (hpq : p ++ q ∈ forecastSeries ctx)
    (hkeep : keep (p ++ List.replicate q.length "__total") = true) :
    SampleVariance P f (p ++ List.replicate q.length "__total") time
      (sumVariance (below (forecastSeries ctx) p) c fun i j => σ i * σ j * ∑ k, σ k ^ 2 * L i k * L j k) := by
  have := C138_normal h (m := fun _ => m) (σ := fun _ => σ) (L := fun _ => L) (fun _ _ => hσ) (fun _ _ => hL) hD
    hp hq hpq hkeep
  have h0 : (N : ℝ) ≠ 0 := Nat.cast_ne_zero.2 (by have := h.two; omega)
  have e1 : ∀ v : ℝ, avgOf N (fun _ => v) = v := by
    intro v
    unfold avgOf
    rw [Finset.sum_const, Finset.card_range, nsmul_eq_mul]
    field_simp
  have e2 : ∀ v : ℝ, spreadOf N (fun _ => v) = 0 := by
    intro v
    unfold spreadOf cospread
    rw [e1]
    simp
  rwa [e1, e2, add_zero] at this

/-- **C138**, independent series: without correlation the variance of the aggregate is the sum of the variances of
the series below it. -/
theorem C138_uncorrelated {n : Nat} (B : Finset (Fin n)) (c σ : Fin n → ℝ) :
    sumVariance B c (fun i j => σ i * σ j * ∑ k, σ k ^ 2 * (1 : Matrix (Fin n) (Fin n) ℝ) i k
      * (1 : Matrix (Fin n) (Fin n) ℝ) j k) = ∑ i ∈ B, (c i * σ i ^ 2) ^ 2 := by
  unfold sumVariance
  refine Finset.sum_congr rfl fun i hi => ?_
  rw [Finset.sum_eq_single_of_mem i hi fun j _ hji => ?_]
  · simp only [Matrix.one_apply, mul_ite, mul_one, mul_zero]
    simp
    ring
  · simp only [Matrix.one_apply, mul_ite, mul_one, mul_zero]
    have : ∀ k, (if j = k then if i = k then σ k ^ 2 else 0 else 0) = 0 := by
      intro k
      by_cases h1 : j = k
      · rw [if_pos h1, if_neg]
        rintro rfl
        exact hji h1
      · rw [if_neg h1]
    simp [this]

end
/-! ## Example

Two series in units of 10 and of 20, the first with noise 1 and the second with noise 2, correlated, and two draws
for the dates 7 and 8. -/

noncomputable section

def exCtx138 : Fitted ℝ :=
  { yNlevels := 2, internalSids := [["__total"], ["x"], ["y"], ["x"]], hierarchical := true, discrete := false,
    scale := .table [(["__total"], 30), (["x"], 10), (["y"], 20)] }

theorem exSeries138 : forecastSeries exCtx138 = [["x"], ["y"]] := by
  unfold forecastSeries exCtx138
  decide

/-- The law of the four numbers of one draw: two dates, two series. -/
def exLaw138 (m : Fin 2 → ℝ) : Measure (Fin 2 → ℝ) :=
  volume.withDensity fun y => ENNReal.ofReal (Real.exp (mvnLP m (obsScaleTril ![1, 2] exL46) y))

theorem exSigma138 : ∀ i, (0 : ℝ) < (![1, 2] : Fin 2 → ℝ) i := by
  intro i
  fin_cases i <;> simp

instance (m : Fin 2 → ℝ) : IsProbabilityMeasure (exLaw138 m) := by
  constructor
  unfold exLaw138
  rw [withDensity_apply _ MeasurableSet.univ, Measure.restrict_univ, ← ofReal_integral_eq_lintegral_ofReal]
  · rw [(C102_panel m exSigma138 exL46_factor).1, ENNReal.ofReal_one]
  · by_contra h
    have := (C102_panel m exSigma138 exL46_factor).1
    rw [integral_undef h] at this
    norm_num at this
  · exact Filter.Eventually.of_forall fun y => (Real.exp_pos _).le

/-- The two draws for the second date are independent; those for the first are zero. -/
def exObs138 (ω : (Fin 2 → ℝ) × (Fin 2 → ℝ)) : Tensor ℝ :=
  ⟨[2, 2, 2], [0, 0, ω.1 0, ω.1 1, 0, 0, ω.2 0, ω.2 1]⟩

def exPick138 (n : ℕ) (ω : (Fin 2 → ℝ) × (Fin 2 → ℝ)) : Fin 2 → ℝ := if n = 0 then ω.1 else ω.2

theorem exDraws138 (m : Fin 2 → ℝ) : ∃ f, PanelDraws ((exLaw138 m).prod (exLaw138 m)) (fun _ => true) exCtx138
    exObs138 [7, 8] f 2 1 8 (![10, 20] : Fin 2 → ℝ) exPick138 := by
  have hs : ∀ ω, ∃ g, predictSamplesHier (fun _ => true) exCtx138 (exObs138 ω) [7, 8] = .ok g := by
    intro ω
    obtain ⟨g, hg⟩ := C06_succeeds (ctx := exCtx138) (obs := exObs138 ω) (fh := [7, 8]) (S := 2) (k := 0)
      (by rw [exSeries138]; rfl) (by norm_num) (by simp [exCtx138])
      (by
        intro s hs
        rw [exSeries138] at hs
        simp only [List.mem_cons, List.not_mem_nil, or_false] at hs
        rcases hs with rfl | rfl
        · exact ⟨10, Or.inr (Or.inr ⟨rfl, _, rfl, by simp⟩)⟩
        · exact ⟨20, Or.inr (Or.inr ⟨rfl, _, rfl, by simp⟩)⟩)
      (Or.inr fun n => by simp [exCtx138]) (Or.inr (Or.inl (by simp [exCtx138])))
    exact ⟨aggregate (fun _ => true) g, by unfold predictSamplesHier; rw [hg]; rfl⟩
  choose f hf using hs
  refine ⟨f, le_refl 2, rfl, by simp [exCtx138], by simp [exCtx138], by simp [exCtx138],
    fun ω => by simp [exObs138, WF, size], ⟨0, fun ω => by rw [exSeries138]; rfl, ?_⟩, by decide, hf, rfl, ?_, ?_⟩
  · intro n hn ω i
    change Fin 2 at i
    interval_cases n <;> fin_cases i <;> rfl
  · intro i
    change Fin 2 at i
    fin_cases i
    · show ScaleIs exCtx138 ["x"] 10
      exact Or.inr (Or.inr ⟨rfl, _, rfl, by simp⟩)
    · show ScaleIs exCtx138 ["y"] 20
      exact Or.inr (Or.inr ⟨rfl, _, rfl, by simp⟩)
  · have hind : IndepFun (exPick138 0) (exPick138 1) ((exLaw138 m).prod (exLaw138 m)) :=
      indepFun_prod (X := id) (Y := id) measurable_id measurable_id
    intro n hn n' hn' hne
    interval_cases n <;> interval_cases n' <;> first
      | exact absurd rfl hne
      | exact hind
      | exact hind.symm

/-- The total of the two series: on average the samples of the total have the variance 5252, of which 480 come from
the correlation. -/
example (m : Fin 2 → ℝ) : ∃ f, PanelDraws ((exLaw138 m).prod (exLaw138 m)) (fun _ => true) exCtx138 exObs138 [7, 8]
      f 2 1 8 (![10, 20] : Fin 2 → ℝ) exPick138 ∧
    SampleVariance ((exLaw138 m).prod (exLaw138 m)) f ["__total"] 8 (100 + 480 + 4672) := by
  obtain ⟨f, hf⟩ := exDraws138 m
  refine ⟨f, hf, ?_⟩
  have := C138_map hf (m := m) (σ := (![1, 2] : Fin 2 → ℝ)) (L := exL46) exSigma138 exL46_factor ?_ (p := [])
    (q := ["x"]) (by simp) (by simp) (by rw [exSeries138]; simp) rfl
  · have e : below (forecastSeries exCtx138) [] = Finset.univ := by simp [below]
    rw [e] at this
    replace this : SampleVariance ((exLaw138 m).prod (exLaw138 m)) f ["__total"] 8 _ := this
    convert this using 1
    change _ = ∑ i : Fin 2, ∑ j : Fin 2, (![10, 20] : Fin 2 → ℝ) i * (![10, 20] : Fin 2 → ℝ) j
      * ((![1, 2] : Fin 2 → ℝ) i * (![1, 2] : Fin 2 → ℝ) j
        * ∑ k : Fin 2, (![1, 2] : Fin 2 → ℝ) k ^ 2 * exL46 i k * exL46 j k)
    simp [Fin.sum_univ_two, exL46]
    norm_num
  · intro n hn
    interval_cases n
    · exact ⟨measurable_fst.aemeasurable, (Measure.fst_prod : ((exLaw138 m).prod (exLaw138 m)).fst = exLaw138 m)⟩
    · exact ⟨measurable_snd.aemeasurable, (Measure.snd_prod : ((exLaw138 m).prod (exLaw138 m)).snd = exLaw138 m)⟩

end

end PV
