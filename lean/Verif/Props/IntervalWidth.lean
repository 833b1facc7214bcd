import Mathlib.Probability.IdentDistrib
import Verif.Lemmas.QuantileOrder
import Verif.Props.SamplingError
import Verif.Props.UnitChange

/-!
# C126: intervals of maximum a posteriori forecasts are equally wide at all dates

With the normal likelihood and maximum a posteriori inference all draws are simulated at the same
parameters.  The quantiles forecast for a date are then the mean of the model for that date plus
quantiles of standard normal numbers times the noise: they do not depend on the date otherwise.
-/

namespace PV
open MeasureTheory ProbabilityTheory Set Tensor
section
variable {Ω τ : Type} [MeasurableSpace Ω] {P : Measure Ω} [IsProbabilityMeasure P] [LinearOrder τ]

/-- The quantiles of `N` numbers are a measurable function of the numbers. -/
theorem quantile_measurable (N : ℕ) {a : ℝ} (h0 : 0 ≤ a) (h1 : a ≤ 1) :
    Measurable fun z : Fin N → ℝ => quantile (List.ofFn z) a := by
  have : LipschitzWith 1 fun z : Fin N → ℝ => quantile (List.ofFn z) a := by
    refine LipschitzWith.of_dist_le_mul fun x y => ?_
    rw [NNReal.coe_one, one_mul, Real.dist_eq]
    refine quantile_close ?_ h0 h1 dist_nonneg
    rw [List.forall₂_iff_get]
    refine ⟨by simp, fun i hi hi' => ?_⟩
    simp only [List.get_eq_getElem, List.getElem_ofFn]
    have hi2 : i < N := by simpa using hi
    have := dist_le_pi_dist x y ⟨i, hi2⟩
    rwa [Real.dist_eq] at this
  exact this.continuous.measurable

/-- The normal likelihood is the normal distribution. -/
theorem normal_law (m : ℝ) {σ : ℝ} (hσ : 0 < σ) :
    (volume.withDensity fun y => ENNReal.ofReal (Real.exp ((ObsDist.normal m σ).logProb y)))
      = (gaussianReal 0 1).map fun z => m + σ * z := by
  have hv : (σ ^ 2).toNNReal ≠ 0 := by simpa using hσ.ne'
  have hc : (((σ ^ 2).toNNReal : NNReal) : ℝ) = σ ^ 2 := Real.coe_toNNReal _ (sq_nonneg _)
  have e : (gaussianReal 0 1).map (fun z => m + σ * z) = gaussianReal m (σ ^ 2).toNNReal := by
    have : (fun z : ℝ => m + σ * z) = (fun z => m + z) ∘ fun z => σ * z := rfl
    rw [this, ← Measure.map_map (by fun_prop) (by fun_prop), gaussianReal_map_const_mul,
      gaussianReal_map_const_add]
    congr 1
    · ring
    · ext
      simp [sq_nonneg]
  rw [e, gaussianReal_of_var_ne_zero _ hv]
  congr 1
  funext y
  unfold gaussianPDF
  congr 1
  unfold gaussianPDFReal
  simp only [ObsDist.logProb, normalLP]
  have h1 : Real.log (2 * Real.pi) / 2 = Real.log (√(2 * Real.pi)) := by
    rw [Real.log_sqrt (by positivity)]
  rw [h1, Real.exp_sub, Real.exp_sub, Real.exp_log hσ, Real.exp_log (by positivity), hc,
    Real.sqrt_mul (by positivity : (0 : ℝ) ≤ 2 * Real.pi) (σ ^ 2), Real.sqrt_sq hσ.le]
  have := Real.sqrt_pos.2 (by positivity : (0 : ℝ) < 2 * Real.pi)
  rw [neg_div]
  field_simp

/-- Independent draws from one normal distribution, jointly. -/
theorem draws_law {N : ℕ} {D : ℕ → Ω → ℝ} {m σ : ℝ} (hσ : 0 < σ)
    (hD : ∀ n < N, DrawnFrom P (D n) (.normal m σ)) (hind : iIndepFun (fun n : Fin N => D n) P) :
    HasLaw (fun ω (n : Fin N) => D n ω)
      ((Measure.pi fun _ : Fin N => gaussianReal 0 1).map fun z n => m + σ * z n) P := by
  have hm : ∀ n : Fin N, AEMeasurable (D n) P := fun n => (hD n n.2).aemeasurable
  refine ⟨aemeasurable_pi_lambda _ hm, ?_⟩
  rw [(iIndepFun_iff_map_fun_eq_pi_map hm).1 hind, Measure.pi_map_pi (f := fun _ z => m + σ * z) fun n => by fun_prop]
  congr 1
  funext n
  rw [← normal_law m hσ]
  exact (hD n n.2).map_eq

/-- The samples of one series and date, as functions of the draws. -/
theorem row_draws {ctx : Fitted ℝ} {obs : Tensor ℝ} {fh : List τ} {f : Frame Nat τ ℝ} {N k : ℕ}
    (hw : obs.WF)
    (hsh : obs.shape = N :: (List.replicate k 1 ++ [fh.length, (forecastSeries ctx).length]))
    (hfh : fh.Nodup) (h : predictSamples ctx obs fh = .ok f) {i t : ℕ}
    {sid : List String} {time : τ} (hi : (forecastSeries ctx)[i]? = some sid)
    (ht : fh[t]? = some time) {c : ℝ} (hc : ScaleIs ctx sid c) {D : ℕ → ℝ}
    (hD : ∀ n < N, obs.get? (n :: (List.replicate k 0 ++ [t, i])) = some (D n)) :
    (∃ r ∈ f.rows, r.sid = sid ∧ r.time = time) ∧
    ∀ r ∈ f.rows, r.sid = sid → r.time = time →
      f.cols.map r.val = List.ofFn fun n : Fin N => c * D n := by
  obtain ⟨hperm, -, hnd, -, -⟩ := C09_index hsh h
  obtain ⟨hcols, hal⟩ := C06_sample_alignment hw hsh h
  have hmem : (sid, time) ∈ f.index := hperm.mem_iff.2 (mem_product.2
    ⟨List.mem_of_getElem? hi, List.mem_of_getElem? ht⟩)
  constructor
  · obtain ⟨r, hr, hre⟩ := List.mem_map.1 hmem
    simp only [Prod.mk.injEq] at hre
    exact ⟨r, hr, hre.1, hre.2⟩
  · intro r hr h1 h2
    obtain ⟨i', t', hi', ht', c', hc', hv⟩ := hal r hr
    have e1 : i' = i := by
      rw [h1] at hi'
      have hl := (List.getElem?_eq_some_iff.1 hi').1
      exact (List.getElem?_inj hl (C09_series ctx sid).1).1 (hi'.trans hi.symm)
    have e2 : t' = t := by
      rw [h2] at ht'
      have hl := (List.getElem?_eq_some_iff.1 ht').1
      exact (List.getElem?_inj hl hfh).1 (ht'.trans ht.symm)
    have e3 : c' = c := by
      rw [h1] at hc'
      unfold ScaleIs at hc hc'
      rcases hc with ⟨a, b⟩ | ⟨a, b⟩ | ⟨a, e, b, b'⟩ <;>
        rcases hc' with ⟨a2, b2⟩ | ⟨a2, b2⟩ | ⟨a2, e2, b2, b2'⟩ <;> simp_all
    subst e1 e2 e3
    rw [hcols]
    refine List.ext_getElem (by simp) fun n hn hn' => ?_
    have hnN : n < N := by simpa using hn
    obtain ⟨v, hv1, hv2⟩ := hv n hnN
    rw [hD n hnN] at hv1
    cases hv1
    rw [List.getElem_map, List.getElem_range, List.getElem_ofFn, hv2]
    exact mul_comm _ _

/-- `Q a` is the forecast of the `a`-quantile for one series and date, in every simulation. -/
def QuantileForecast (f : Ω → Frame Nat τ ℝ) (name : String) (alphas : List ℝ) (sid : List String)
    (time : τ) (Q : ℝ → Ω → ℝ) : Prop :=
  ∀ ω q, predictQuantiles name alphas (f ω) = .ok q →
    (∃ p ∈ q.rows, p.sid = sid ∧ p.time = time) ∧
    ∀ p ∈ q.rows, p.sid = sid → p.time = time → ∀ a ∈ alphas, p.val (name, a) = Q a ω

/-- All draws for one series and date come from the same normal distribution, independently: draw
`n` is the observation of series number `i` and date number `t` simulated at the `n`-th draw of the
parameters, and with maximum a posteriori inference these are the same for all `n`. -/
structure NormalDraws (P : Measure Ω) (ctx : Fitted ℝ) (obs : Ω → Tensor ℝ) (fh : List τ)
    (f : Ω → Frame Nat τ ℝ) (N k t i : ℕ) (D : ℕ → Ω → ℝ) (m σ : ℝ) : Prop where
  pos : 0 < N
  wf : ∀ ω, (obs ω).WF
  shape : ∀ ω, (obs ω).shape
    = N :: (List.replicate k 1 ++ [fh.length, (forecastSeries ctx).length])
  nodup : fh.Nodup
  ok : ∀ ω, predictSamples ctx (obs ω) fh = .ok (f ω)
  draw : ∀ n < N, ∀ ω, (obs ω).get? (n :: (List.replicate k 0 ++ [t, i])) = some (D n ω)
  noise : 0 < σ
  normal : ∀ n < N, DrawnFrom P (D n) (.normal m σ)
  indep : iIndepFun (fun n : Fin N => D n) P

/-- The quantiles of the samples, with the part common to all draws taken out. -/
theorem quantile_standard {N : ℕ} (hN : 0 < N) {c m σ a : ℝ} (hc : 0 < c) (hσ : 0 < σ) (h0 : 0 ≤ a)
    (h1 : a ≤ 1) (z : Fin N → ℝ) :
    quantile (List.ofFn fun n => c * (m + σ * z n)) a = c * m + c * σ * quantile (List.ofFn z) a := by
  have hne : List.ofFn z ≠ [] := by
    intro e
    have := congrArg List.length e
    simp at this
    omega
  have e : (List.ofFn fun n => c * (m + σ * z n))
      = ((List.ofFn z).map (c * σ * ·)).map (c * m + ·) := by
    rw [List.map_map, List.map_ofFn]
    congr 1
    funext n
    simp only [Function.comp_def]
    ring
  rw [e, quantile_add _ (by simpa using hne) h0 h1, quantile_mul (mul_pos hc hσ)]

/-- **C126.** Jointly for all levels, the quantiles forecast for a series and date are distributed like
the scale times the mean of the model for that date, plus the scale times the noise times the quantiles
of `N` independent standard normal numbers. -/
theorem C126_law {ctx : Fitted ℝ} {obs : Ω → Tensor ℝ} {fh : List τ} {f : Ω → Frame Nat τ ℝ}
    {N k t i : ℕ} {D : ℕ → Ω → ℝ} {m σ : ℝ} (h : NormalDraws P ctx obs fh f N k t i D m σ)
    {sid : List String} {time : τ} (hi : (forecastSeries ctx)[i]? = some sid)
    (ht : fh[t]? = some time) {c : ℝ} (hc : ScaleIs ctx sid c) (hc0 : 0 < c)
    (name : String) {alphas : List ℝ} (ha : ∀ a ∈ alphas, 0 ≤ a ∧ a ≤ 1) :
    ∃ Q : ℝ → Ω → ℝ, QuantileForecast f name alphas sid time Q ∧
      HasLaw (fun ω (j : Fin alphas.length) => Q alphas[j] ω)
        ((Measure.pi fun _ : Fin N => gaussianReal 0 1).map fun z j =>
          c * m + c * σ * quantile (List.ofFn z) alphas[j]) P := by
  refine ⟨fun a ω => quantile (List.ofFn fun n : Fin N => c * D n ω) a, fun ω q hq => ?_, ?_⟩
  · obtain ⟨⟨r, hr, hr1, hr2⟩, hall⟩ := row_draws (h.wf ω) (h.shape ω) h.nodup (h.ok ω) hi ht hc
      (D := fun n => D n ω) fun n hn => h.draw n hn ω
    unfold predictQuantiles at hq
    rw [if_pos ha] at hq
    cases hq
    refine ⟨⟨_, List.mem_map.2 ⟨r, hr, rfl⟩, hr1, hr2⟩, fun p hp h1 h2 a _ => ?_⟩
    obtain ⟨r', hr', rfl⟩ := List.mem_map.1 hp
    simp only at h1 h2 ⊢
    rw [hall r' hr' h1 h2]
  · have hl := draws_law h.noise h.normal h.indep
    have hg : Measurable fun (x : Fin N → ℝ) (j : Fin alphas.length) =>
        quantile (List.ofFn fun n => c * x n) alphas[j] := by
      refine measurable_pi_lambda _ fun j => ?_
      have hj := ha alphas[j] (List.getElem_mem _)
      exact (quantile_measurable N hj.1 hj.2).comp (by fun_prop)
    refine ⟨hg.comp_aemeasurable hl.aemeasurable, ?_⟩
    have e := hl.map_eq
    have : (fun ω (j : Fin alphas.length) => quantile (List.ofFn fun n : Fin N => c * D n ω) alphas[j])
        = (fun (x : Fin N → ℝ) (j : Fin alphas.length) => quantile (List.ofFn fun n => c * x n) alphas[j])
          ∘ fun ω n => D n ω := rfl
    rw [this, ← AEMeasurable.map_map_of_aemeasurable hg.aemeasurable hl.aemeasurable, e,
      Measure.map_map hg (by fun_prop)]
    congr 1
    funext z j
    have hj := ha alphas[j] (List.getElem_mem _)
    exact quantile_standard h.pos hc0 h.noise hj.1 hj.2 z

/-- **C126**, two dates: everything computed from the quantiles relative to the mean of the model --
widths of intervals, distances between levels -- has the same distribution for both dates, near or far
in the future or in the past. -/
theorem C126_dates {ctx : Fitted ℝ} {obs : Ω → Tensor ℝ} {fh : List τ} {f : Ω → Frame Nat τ ℝ}
    {N k t t' i : ℕ} {D D' : ℕ → Ω → ℝ} {m m' σ : ℝ}
    (h : NormalDraws P ctx obs fh f N k t i D m σ) (h' : NormalDraws P ctx obs fh f N k t' i D' m' σ)
    {sid : List String} {time time' : τ} (hi : (forecastSeries ctx)[i]? = some sid)
    (ht : fh[t]? = some time) (ht' : fh[t']? = some time') {c : ℝ} (hc : ScaleIs ctx sid c) (hc0 : 0 < c)
    (name : String) {alphas : List ℝ} (ha : ∀ a ∈ alphas, 0 ≤ a ∧ a ≤ 1) :
    ∃ Q Q' : ℝ → Ω → ℝ, QuantileForecast f name alphas sid time Q ∧
      QuantileForecast f name alphas sid time' Q' ∧
      (∀ g : (Fin alphas.length → ℝ) → ℝ, Measurable g →
        IdentDistrib (fun ω => g fun j => Q alphas[j] ω - c * m)
          (fun ω => g fun j => Q' alphas[j] ω - c * m') P P) ∧
      ∀ a ∈ alphas, ∀ b ∈ alphas,
        IdentDistrib (fun ω => Q b ω - Q a ω) (fun ω => Q' b ω - Q' a ω) P P := by
  obtain ⟨Q, q1, q2⟩ := C126_law h hi ht hc hc0 name ha
  obtain ⟨Q', q1', q2'⟩ := C126_law h' hi ht' hc hc0 name ha
  have hz : ∀ m, Measurable fun (z : Fin N → ℝ) (j : Fin alphas.length) =>
      c * m + c * σ * quantile (List.ofFn z) alphas[j] := by
    refine fun m => measurable_pi_lambda _ fun j => ?_
    have hj := ha alphas[j] (List.getElem_mem _)
    exact ((quantile_measurable N hj.1 hj.2).const_mul _).const_add _
  have key : ∀ {Q : ℝ → Ω → ℝ} {m : ℝ}, HasLaw (fun ω (j : Fin alphas.length) => Q alphas[j] ω)
        ((Measure.pi fun _ : Fin N => gaussianReal 0 1).map fun z j =>
          c * m + c * σ * quantile (List.ofFn z) alphas[j]) P →
      ∀ g : (Fin alphas.length → ℝ) → ℝ, Measurable g →
      AEMeasurable (fun ω => g fun j => Q alphas[j] ω - c * m) P ∧
      P.map (fun ω => g fun j => Q alphas[j] ω - c * m)
        = (Measure.pi fun _ : Fin N => gaussianReal 0 1).map fun z =>
          g fun j => c * σ * quantile (List.ofFn z) alphas[j] := by
    intro Q m hQ g hg
    have hs : Measurable fun x : Fin alphas.length → ℝ => g fun j => x j - c * m :=
      hg.comp (by fun_prop)
    refine ⟨hs.comp_aemeasurable hQ.aemeasurable, ?_⟩
    have e : (fun ω => g fun j => Q alphas[j] ω - c * m)
        = (fun x : Fin alphas.length → ℝ => g fun j => x j - c * m) ∘ fun ω j => Q alphas[j] ω := rfl
    rw [e, ← AEMeasurable.map_map_of_aemeasurable hs.aemeasurable hQ.aemeasurable, hQ.map_eq,
      Measure.map_map hs (hz m)]
    congr 1
    funext z
    simp
  have main : ∀ g : (Fin alphas.length → ℝ) → ℝ, Measurable g →
        IdentDistrib (fun ω => g fun j => Q alphas[j] ω - c * m)
          (fun ω => g fun j => Q' alphas[j] ω - c * m') P P := fun g hg =>
    ⟨(key q2 g hg).1, (key q2' g hg).1, (key q2 g hg).2.trans (key q2' g hg).2.symm⟩
  refine ⟨Q, Q', q1, q1', main, fun a hma b hmb => ?_⟩
  obtain ⟨i, hi, rfl⟩ := List.getElem_of_mem hma
  obtain ⟨j, hj, rfl⟩ := List.getElem_of_mem hmb
  have := main (fun x => x ⟨j, hj⟩ - x ⟨i, hi⟩) (by fun_prop)
  simpa using this

/-- **C126**, symmetry: the upper quantiles are as far above the mean of the model as the lower
quantiles are below it, in distribution. -/
theorem C126_symmetric {ctx : Fitted ℝ} {obs : Ω → Tensor ℝ} {fh : List τ} {f : Ω → Frame Nat τ ℝ}
    {N k t i : ℕ} {D : ℕ → Ω → ℝ} {m σ : ℝ} (h : NormalDraws P ctx obs fh f N k t i D m σ)
    {sid : List String} {time : τ} (hi : (forecastSeries ctx)[i]? = some sid)
    (ht : fh[t]? = some time) {c : ℝ} (hc : ScaleIs ctx sid c) (hc0 : 0 < c)
    (name : String) {a : ℝ} (h0 : 0 ≤ a) (h1 : a ≤ 1) :
    ∃ Q : ℝ → Ω → ℝ, QuantileForecast f name [a, 1 - a] sid time Q ∧
      IdentDistrib (fun ω => Q (1 - a) ω - c * m) (fun ω => c * m - Q a ω) P P := by
  have ha : ∀ b ∈ [a, 1 - a], 0 ≤ b ∧ b ≤ 1 := by
    intro b hb
    simp only [List.mem_cons, List.not_mem_nil, or_false] at hb
    rcases hb with rfl | rfl
    · exact ⟨h0, h1⟩
    · constructor <;> linarith
  obtain ⟨Q, q1, q2⟩ := C126_law h hi ht hc hc0 name ha
  have hz : Measurable fun (z : Fin N → ℝ) (j : Fin [a, 1 - a].length) =>
      c * m + c * σ * quantile (List.ofFn z) [a, 1 - a][j] := by
    refine measurable_pi_lambda _ fun j => ?_
    have hj := ha [a, 1 - a][j] (List.getElem_mem _)
    exact ((quantile_measurable N hj.1 hj.2).const_mul _).const_add _
  have push : ∀ g : (Fin [a, 1 - a].length → ℝ) → ℝ, Measurable g →
      AEMeasurable (fun ω => g fun j => Q [a, 1 - a][j] ω) P ∧
      P.map (fun ω => g fun j => Q [a, 1 - a][j] ω)
        = (Measure.pi fun _ : Fin N => gaussianReal 0 1).map fun z =>
          g fun j => c * m + c * σ * quantile (List.ofFn z) [a, 1 - a][j] := by
    intro g hg
    refine ⟨hg.comp_aemeasurable q2.aemeasurable, ?_⟩
    have e : (fun ω => g fun j => Q [a, 1 - a][j] ω) = g ∘ fun ω j => Q [a, 1 - a][j] ω := rfl
    rw [e, ← AEMeasurable.map_map_of_aemeasurable hg.aemeasurable q2.aemeasurable, q2.map_eq,
      Measure.map_map hg hz]
    rfl
  obtain ⟨m1, l1⟩ := push (fun x => x ⟨1, by simp⟩ - c * m) (by fun_prop)
  obtain ⟨m2, l2⟩ := push (fun x => c * m - x ⟨0, by simp⟩) (by fun_prop)
  refine ⟨Q, q1, m1, m2, l1.trans (Eq.trans ?_ l2.symm)⟩
  simp only [Fin.getElem_fin, List.getElem_cons_zero, List.getElem_cons_succ, add_sub_cancel_left,
    sub_add_cancel_left]
  have hflip : (Measure.pi fun _ : Fin N => gaussianReal 0 1).map (fun z n => - z n)
      = Measure.pi fun _ : Fin N => gaussianReal 0 1 := by
    rw [Measure.pi_map_pi (f := fun _ x => - x) fun n => by fun_prop]
    congr 1
    funext n
    rw [gaussianReal_map_neg]
    simp
  have hmz : ∀ {b : ℝ}, 0 ≤ b → b ≤ 1 → Measurable fun z : Fin N → ℝ => quantile (List.ofFn z) b :=
    fun hb hb' => quantile_measurable N hb hb'
  have hms : Measurable fun z : Fin N → ℝ => c * σ * quantile (List.ofFn z) (1 - a) :=
    (hmz (by linarith) (by linarith)).const_mul _
  conv_lhs => rw [← hflip, Measure.map_map hms (by fun_prop)]
  congr 1
  funext z
  have hne : List.ofFn z ≠ [] := by
    intro e
    have := congrArg List.length e
    have := h.pos
    simp at *
    omega
  have e : (List.ofFn fun n => - z n) = (List.ofFn z).map (-·) := by
    rw [List.map_ofFn]
    rfl
  simp only [Function.comp_apply]
  rw [e, quantile_neg hne h0 h1]
  ring

/-- Draws of the univariate forecaster with the normal likelihood, all simulated at the same
parameters, meet the conditions. -/
theorem normalDraws_of {ctx : Fitted ℝ} {obs : Ω → Tensor ℝ} {fh : List τ} {f : Ω → Frame Nat τ ℝ}
    {N t : ℕ} {D : ℕ → Ω → ℝ} (h : DrawsFor P ctx obs fh f N t D) {σ m scale : ℝ} {mean : Tensor ℝ}
    (hσ : 0 < σ) (hm : mean.data[t]? = some m)
    (hD : ∀ n < N, ∃ d, (univariateObs .normal σ scale mean)[t]? = some d ∧ DrawnFrom P (D n) d)
    (hind : iIndepFun (fun n : Fin N => D n) P) : NormalDraws P ctx obs fh f N 0 t 0 D m σ := by
  have hfs : forecastSeries ctx = [[]] := by simp [forecastSeries, h.flat]
  refine ⟨h.pos, h.wf, fun ω => ?_, h.nodup, h.ok, h.draw, hσ, fun n hn => ?_, hind⟩
  · rw [h.shape ω, hfs]
    rfl
  · obtain ⟨d, hd, hdr⟩ := hD n hn
    have : d = .normal m σ := by
      simp only [univariateObs, List.getElem?_map, hm, Option.map_some, Option.some.injEq] at hd
      exact hd.symm
    rwa [this] at hdr

/-- **C126**, the univariate forecaster: with the normal likelihood and maximum a posteriori inference,
forecast intervals are equally wide at all dates, in distribution, whatever the mean of the model does. -/
theorem C126_univariate {ctx : Fitted ℝ} {obs : Ω → Tensor ℝ} {fh : List τ} {f : Ω → Frame Nat τ ℝ}
    {N t t' : ℕ} {D D' : ℕ → Ω → ℝ} (h : DrawsFor P ctx obs fh f N t D)
    (h' : DrawsFor P ctx obs fh f N t' D') {σ m m' scale : ℝ} {mean : Tensor ℝ} (hσ : 0 < σ)
    (hm : mean.data[t]? = some m) (hm' : mean.data[t']? = some m')
    (hD : ∀ n < N, ∃ d, (univariateObs .normal σ scale mean)[t]? = some d ∧ DrawnFrom P (D n) d)
    (hD' : ∀ n < N, ∃ d, (univariateObs .normal σ scale mean)[t']? = some d ∧ DrawnFrom P (D' n) d)
    (hind : iIndepFun (fun n : Fin N => D n) P) (hind' : iIndepFun (fun n : Fin N => D' n) P)
    {time time' : τ} (ht : fh[t]? = some time) (ht' : fh[t']? = some time') {c : ℝ}
    (hc : ScaleIs ctx [] c) (hc0 : 0 < c) (name : String) {alphas : List ℝ}
    (ha : ∀ a ∈ alphas, 0 ≤ a ∧ a ≤ 1) :
    ∃ Q Q' : ℝ → Ω → ℝ, QuantileForecast f name alphas [] time Q ∧
      QuantileForecast f name alphas [] time' Q' ∧
      ∀ a ∈ alphas, ∀ b ∈ alphas,
        IdentDistrib (fun ω => Q b ω - Q a ω) (fun ω => Q' b ω - Q' a ω) P P := by
  have hfs : forecastSeries ctx = [[]] := by simp [forecastSeries, h.flat]
  obtain ⟨Q, Q', q, q', -, hw⟩ := C126_dates (normalDraws_of h hσ hm hD hind)
    (normalDraws_of h' hσ hm' hD' hind') (sid := []) (by rw [hfs]; rfl) ht ht' hc hc0 name ha
  exact ⟨Q, Q', q, q', hw⟩

end

/-! ## Example: the two dates of `exLaw111` -/

/-- The three draws of the first date. -/
def exFirst126 (n : ℕ) (ω : Fin 6 → ℝ) : ℝ := if n = 0 then ω 0 else if n = 1 then ω 2 else ω 4

theorem exDraws126 : ∃ f,
    NormalDraws exLaw111 exCtx111 exObs111 [7, 8] f 3 0 0 0 exFirst126 2 (1 / 2) ∧
    NormalDraws exLaw111 exCtx111 exObs111 [7, 8] f 3 0 1 0 exDraw111 5 (1 / 2) := by
  obtain ⟨f, hf⟩ := exDraws111
  have hind : iIndepFun (fun i (ω : Fin 6 → ℝ) => ω i) exLaw111 :=
    iIndepFun_pi (X := fun _ x => x) fun i => aemeasurable_id
  have i0 : iIndepFun (fun n : Fin 3 => exFirst126 n) exLaw111 := by
    have := hind.precomp (g := fun n : Fin 3 => (⟨2 * n, by omega⟩ : Fin 6)) (by
      intro a b h
      simp only [Fin.mk.injEq] at h
      exact Fin.ext (by omega))
    convert this using 1
    funext n ω
    fin_cases n <;> rfl
  have i1 : iIndepFun (fun n : Fin 3 => exDraw111 n) exLaw111 := by
    have := hind.precomp (g := fun n : Fin 3 => (⟨2 * n + 1, by omega⟩ : Fin 6)) (by
      intro a b h
      simp only [Fin.mk.injEq] at h
      exact Fin.ext (by omega))
    convert this using 1
    funext n ω
    fin_cases n <;> rfl
  refine ⟨f, ⟨hf.pos, hf.wf, hf.shape, hf.nodup, hf.ok, ?_, by norm_num, ?_, i0⟩,
    ⟨hf.pos, hf.wf, hf.shape, hf.nodup, hf.ok, hf.draw, by norm_num, ?_, i1⟩⟩
  · intro n hn ω
    interval_cases n <;> rfl
  · intro n hn
    interval_cases n
    · exact exLaw111_drawn 0
    · exact exLaw111_drawn 2
    · exact exLaw111_drawn 4
  · intro n hn
    interval_cases n
    · exact exLaw111_drawn 1
    · exact exLaw111_drawn 3
    · exact exLaw111_drawn 5

/-- The 80% intervals of the two dates are equally wide in distribution. -/
example : ∃ f : (Fin 6 → ℝ) → Frame Nat ℕ ℝ, ∃ Q Q' : ℝ → (Fin 6 → ℝ) → ℝ,
    QuantileForecast f "sales" [1 / 10, 9 / 10] [] 7 Q ∧
    QuantileForecast f "sales" [1 / 10, 9 / 10] [] 8 Q' ∧
    IdentDistrib (fun ω => Q (9 / 10) ω - Q (1 / 10) ω) (fun ω => Q' (9 / 10) ω - Q' (1 / 10) ω)
      exLaw111 exLaw111 := by
  obtain ⟨f, h, h'⟩ := exDraws126
  obtain ⟨Q, Q', q, q', -, hw⟩ := C126_dates h h' (sid := []) rfl rfl rfl
    (Or.inr (Or.inl ⟨rfl, rfl⟩) : ScaleIs exCtx111 [] 10) (by norm_num) "sales"
    (alphas := [1 / 10, 9 / 10]) (by
      intro a ha
      simp only [List.mem_cons, List.not_mem_nil, or_false] at ha
      rcases ha with rfl | rfl <;> norm_num)
  exact ⟨f, Q, Q', q, q', hw _ (by simp) _ (by simp)⟩

end PV
