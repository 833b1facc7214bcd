import Mathlib.Probability.Distributions.Gaussian.Real
import Verif.Lemmas.Draws
import Verif.Props.Moments
import Verif.Props.Samples

/-!
# C111: how far the point forecast is from the mean of the model

Point forecasts are averages of simulated observations, hence random themselves.
-/

namespace PV
open MeasureTheory ProbabilityTheory Set Tensor
section
variable {Ω τ : Type} [MeasurableSpace Ω] {P : Measure Ω} [IsProbabilityMeasure P] [LinearOrder τ]

/-- A sum over `range N`, as a list or as a finite set. -/
theorem sum_list_range (g : ℕ → ℝ) (N : ℕ) :
    ((List.range N).map g).sum = ∑ n ∈ Finset.range N, g n := by
  induction N with
  | zero => simp
  | succ n ih => rw [List.range_succ, List.map_append, List.sum_append, ih, Finset.sum_range_succ]; simp

/-- Mean and variance of a multiple of an average of independent random numbers, and Chebyshev's
bound. -/
theorem average_moments {N : ℕ} (hN : 0 < N) {D : ℕ → Ω → ℝ} {m v : ℕ → ℝ}
    (hD : ∀ n < N, MemLp (D n) 2 P ∧ ∫ ω, D n ω ∂P = m n ∧ Var[D n; P] = v n)
    (hind : ∀ n < N, ∀ n' < N, n ≠ n' → IndepFun (D n) (D n') P) (c : ℝ) :
    MemLp (fun ω => c * ((∑ n ∈ Finset.range N, D n ω) / N)) 2 P ∧
    ∫ ω, c * ((∑ n ∈ Finset.range N, D n ω) / N) ∂P = c * ((∑ n ∈ Finset.range N, m n) / N) ∧
    Var[fun ω => c * ((∑ n ∈ Finset.range N, D n ω) / N); P]
      = c ^ 2 * (∑ n ∈ Finset.range N, v n) / N ^ 2 := by
  have hL : ∀ n ∈ Finset.range N, MemLp (D n) 2 P := fun n hn => (hD n (Finset.mem_range.1 hn)).1
  have e : (fun ω => c * ((∑ n ∈ Finset.range N, D n ω) / N))
      = fun ω => (c / N) * (∑ n ∈ Finset.range N, D n) ω := by
    funext ω
    rw [Finset.sum_apply]
    ring
  have hs : MemLp (∑ n ∈ Finset.range N, D n) 2 P := memLp_finsetSum' _ hL
  rw [e]
  refine ⟨hs.const_mul _, ?_, ?_⟩
  · rw [integral_const_mul]
    simp only [Finset.sum_apply]
    rw [integral_finsetSum _ fun n hn => (hL n hn).integrable (by norm_num),
      Finset.sum_congr rfl fun n hn => (hD n (Finset.mem_range.1 hn)).2.1]
    ring
  · rw [variance_const_mul, IndepFun.variance_sum hL, Finset.sum_congr rfl fun n hn =>
      (hD n (Finset.mem_range.1 hn)).2.2]
    · ring
    · intro n hn n' hn' hne
      exact hind n (Finset.mem_range.1 hn) n' (Finset.mem_range.1 hn') hne

/-- The point forecast for one series and date, as a function of the draws. -/
theorem point_value {ctx : Fitted ℝ} {obs : Tensor ℝ} {fh : List τ} {f : Frame Nat τ ℝ} {N k : ℕ}
    (hw : obs.WF)
    (hsh : obs.shape = N :: (List.replicate k 1 ++ [fh.length, (forecastSeries ctx).length]))
    (hfh : fh.Nodup) (h : predictSamples ctx obs fh = .ok f) (name : String) {i t : ℕ}
    {sid : List String} {time : τ} (hi : (forecastSeries ctx)[i]? = some sid)
    (ht : fh[t]? = some time) {c : ℝ} (hc : ScaleIs ctx sid c) :
    (∃ p ∈ (predictPoint name f).rows, p.sid = sid ∧ p.time = time) ∧
    ∀ p ∈ (predictPoint name f).rows, p.sid = sid → p.time = time → p.val name
      = c * ((∑ n ∈ Finset.range N, (obs.get? (n :: (List.replicate k 0 ++ [t, i]))).getD 0) / N) := by
  obtain ⟨hperm, -, hnd, -, -⟩ := C09_index hsh h
  have hnd := hnd hfh
  obtain ⟨hcols, hal⟩ := C06_sample_alignment hw hsh h
  have hmem : (sid, time) ∈ f.index := hperm.mem_iff.2 (mem_product.2
    ⟨List.mem_of_getElem? hi, List.mem_of_getElem? ht⟩)
  constructor
  · obtain ⟨r, hr, hre⟩ := List.mem_map.1 hmem
    simp only [Prod.mk.injEq] at hre
    exact ⟨_, List.mem_map.2 ⟨r, hr, rfl⟩, hre.1, hre.2⟩
  · intro p hp h1 h2
    obtain ⟨r, hr, rfl⟩ := List.mem_map.1 hp
    simp only at h1 h2 ⊢
    obtain ⟨i', t', hi', ht', c', hc', hv⟩ := hal r hr
    have e1 : i' = i := by
      rw [h1] at hi'
      have hl := (List.getElem?_eq_some_iff.1 hi').1
      exact (List.getElem?_inj hl (C09_series ctx sid).1).1 (hi'.trans hi.symm)
    have e2 : t' = t := by
      rw [h2] at ht'
      have hl := (List.getElem?_eq_some_iff.1 ht').1
      exact (List.getElem?_inj hl hfh).1 (ht'.trans ht.symm)
    have e3 : c' = c := by
      rw [h1] at hc'
      unfold ScaleIs at hc hc'
      rcases hc with ⟨a, b⟩ | ⟨a, b⟩ | ⟨a, e, b, b'⟩ <;>
        rcases hc' with ⟨a2, b2⟩ | ⟨a2, b2⟩ | ⟨a2, e2, b2, b2'⟩ <;> simp_all
    subst e1 e2 e3
    rw [hcols, List.length_range]
    have : (List.range N).map r.val
        = (List.range N).map fun n => (obs.get? (n :: (List.replicate k 0 ++ [t', i']))).getD 0 * c' := by
      refine List.map_congr_left fun n hn => ?_
      obtain ⟨v, hv1, hv2⟩ := hv n (List.mem_range.1 hn)
      rw [hv1, hv2]
      rfl
    rw [this, sum_list_range, ← Finset.sum_mul]
    ring

/-- **C111**, all forecasters: if the draws for one series and date are independent, draw `n` having
the mean `m n` and the variance `v n`, then the point forecast is the right value on average -- the
scale of the series times the average of the `m n` -- and it varies around it with the variance
`scale² (v 0 + … + v (N-1)) / N²`; large deviations have a small probability. -/
theorem C111_point {ctx : Fitted ℝ} {obs : Ω → Tensor ℝ} {fh : List τ} {f : Ω → Frame Nat τ ℝ}
    {N k : ℕ} (hN : 0 < N) (hw : ∀ ω, (obs ω).WF)
    (hsh : ∀ ω, (obs ω).shape
      = N :: (List.replicate k 1 ++ [fh.length, (forecastSeries ctx).length]))
    (hfh : fh.Nodup) (h : ∀ ω, predictSamples ctx (obs ω) fh = .ok (f ω)) (name : String) {i t : ℕ}
    {sid : List String} {time : τ} (hi : (forecastSeries ctx)[i]? = some sid)
    (ht : fh[t]? = some time) {c : ℝ} (hc : ScaleIs ctx sid c) {D : ℕ → Ω → ℝ}
    (hD : ∀ n < N, ∀ ω, (obs ω).get? (n :: (List.replicate k 0 ++ [t, i])) = some (D n ω))
    {m v : ℕ → ℝ} (hmv : ∀ n < N, MemLp (D n) 2 P ∧ ∫ ω, D n ω ∂P = m n ∧ Var[D n; P] = v n)
    (hind : ∀ n < N, ∀ n' < N, n ≠ n' → IndepFun (D n) (D n') P) :
    ∃ F : Ω → ℝ,
      (∀ ω, (∃ p ∈ (predictPoint name (f ω)).rows, p.sid = sid ∧ p.time = time) ∧
        ∀ p ∈ (predictPoint name (f ω)).rows, p.sid = sid → p.time = time → p.val name = F ω) ∧
      ∫ ω, F ω ∂P = c * ((∑ n ∈ Finset.range N, m n) / N) ∧
      Var[F; P] = c ^ 2 * (∑ n ∈ Finset.range N, v n) / N ^ 2 ∧
      ∀ ε : ℝ, 0 < ε → P {ω | ε ≤ |F ω - c * ((∑ n ∈ Finset.range N, m n) / N)|}
        ≤ ENNReal.ofReal (c ^ 2 * (∑ n ∈ Finset.range N, v n) / N ^ 2 / ε ^ 2) := by
  obtain ⟨a1, a2, a3⟩ := average_moments hN hmv hind c
  refine ⟨fun ω => c * ((∑ n ∈ Finset.range N, D n ω) / N), fun ω => ?_, a2, a3, fun ε hε => ?_⟩
  · obtain ⟨b1, b2⟩ := point_value (hw ω) (hsh ω) hfh (h ω) name hi ht hc
    refine ⟨b1, fun p hp h1 h2 => ?_⟩
    rw [b2 p hp h1 h2, Finset.sum_congr rfl fun n hn => by rw [hD n (Finset.mem_range.1 hn) ω, Option.getD_some]]
  · have := meas_ge_le_variance_div_sq a1 hε
    rwa [a2, a3] at this

/-- Numbers drawn from the normal likelihood. -/
theorem drawn_normal {X : Ω → ℝ} {m σ : ℝ} (hσ : 0 < σ) (h : DrawnFrom P X (.normal m σ)) :
    MemLp X 2 P ∧ ∫ ω, X ω ∂P = m ∧ Var[X; P] = σ ^ 2 := by
  obtain ⟨h1, h2, h3⟩ := normal_moments m hσ
  refine density_moments ?_ (fun y => (Real.exp_pos _).le) h (by positivity) h1 h2 h3
  simp only [ObsDist.logProb, normalLP]
  fun_prop

/-- Numbers drawn from a Gamma distribution. -/
theorem drawn_gamma {X : Ω → ℝ} {p : GammaParams} (hc : 0 < p.concentration) (hr : 0 < p.rate)
    (h : DrawnFrom P X (.gamma p)) :
    MemLp X 2 P ∧ ∫ ω, X ω ∂P = p.concentration / p.rate ∧ Var[X; P] = p.concentration / p.rate ^ 2 := by
  obtain ⟨h1, h2, h3⟩ := gamma_moments hc hr
  refine density_moments ?_ (fun y => (Real.exp_pos _).le) h (by positivity) h1 h2 h3
  simp only [ObsDist.logProb, gammaLP]
  fun_prop

/-- Counts drawn from a negative binomial distribution. -/
theorem drawn_counts {X : Ω → ℝ} {mean conc : ℝ} (hm : 0 < mean) (hc : 0 < conc)
    (h : DrawnFrom P X (.negBinomial2 mean conc)) :
    MemLp X 2 P ∧ ∫ ω, X ω ∂P = mean ∧ Var[X; P] = mean + mean ^ 2 / conc := by
  obtain ⟨k, hk, hX, hP⟩ := h
  obtain ⟨h1, h2, h3⟩ := negBinomial_moments hm hc
  have e : X = fun ω => (k ω : ℝ) := funext hX
  rw [e]
  exact count_moments hk (fun j => (Real.exp_pos _).le) hP h1 h2 h3

/-- What is fixed when one series is forecast with `N` draws: `D n` is draw `n` for date `t`. -/
structure DrawsFor (P : Measure Ω) (ctx : Fitted ℝ) (obs : Ω → Tensor ℝ) (fh : List τ)
    (f : Ω → Frame Nat τ ℝ) (N t : ℕ) (D : ℕ → Ω → ℝ) : Prop where
  pos : 0 < N
  flat : ctx.yNlevels = 1
  wf : ∀ ω, (obs ω).WF
  shape : ∀ ω, (obs ω).shape = [N, fh.length, 1]
  nodup : fh.Nodup
  ok : ∀ ω, predictSamples ctx (obs ω) fh = .ok (f ω)
  draw : ∀ n < N, ∀ ω, (obs ω).get? [n, t, 0] = some (D n ω)
  indep : ∀ n < N, ∀ n' < N, n ≠ n' → IndepFun (D n) (D n') P

/-- The point forecasts for one date, over all simulations, have the mean `μ` and the variance `v`. -/
def PointForecast (P : Measure Ω) (f : Ω → Frame Nat τ ℝ) (name : String) (time : τ) (μ v : ℝ) : Prop :=
  ∃ F : Ω → ℝ, (∀ ω, (∃ p ∈ (predictPoint name (f ω)).rows, p.time = time) ∧
      ∀ p ∈ (predictPoint name (f ω)).rows, p.time = time → p.val name = F ω) ∧
    ∫ ω, F ω ∂P = μ ∧ Var[F; P] = v ∧
    ∀ ε : ℝ, 0 < ε → P {ω | ε ≤ |F ω - μ|} ≤ ENNReal.ofReal (v / ε ^ 2)

theorem single_point {ctx : Fitted ℝ} {obs : Ω → Tensor ℝ} {fh : List τ} {f : Ω → Frame Nat τ ℝ}
    {N t : ℕ} {D : ℕ → Ω → ℝ} (h : DrawsFor P ctx obs fh f N t D) (name : String) {time : τ}
    (ht : fh[t]? = some time) {c : ℝ} (hc : ScaleIs ctx [] c) {m v : ℕ → ℝ}
    (hmv : ∀ n < N, MemLp (D n) 2 P ∧ ∫ ω, D n ω ∂P = m n ∧ Var[D n; P] = v n) :
    PointForecast P f name time (c * ((∑ n ∈ Finset.range N, m n) / N))
      (c ^ 2 * (∑ n ∈ Finset.range N, v n) / N ^ 2) := by
  have hfs : forecastSeries ctx = [[]] := by simp [forecastSeries, h.flat]
  have hsh : ∀ ω, (obs ω).shape
      = N :: (List.replicate 0 1 ++ [fh.length, (forecastSeries ctx).length]) := by
    intro ω
    rw [h.shape ω, hfs]
    rfl
  obtain ⟨F, h1, h2, h3, h4⟩ := C111_point h.pos h.wf hsh h.nodup h.ok name (i := 0) (sid := [])
    (by rw [hfs]; rfl) ht hc (k := 0) (by simpa using h.draw) hmv h.indep
  refine ⟨F, fun ω => ?_, h2, h3, h4⟩
  have hsid : ∀ p ∈ (predictPoint name (f ω)).rows, p.sid = [] := by
    intro p hp
    obtain ⟨hperm, -⟩ := C09_index (hsh ω) (h.ok ω)
    obtain ⟨r, hr, rfl⟩ := List.mem_map.1 hp
    have := hperm.mem_iff.1 (List.mem_map.2 ⟨r, hr, rfl⟩)
    rw [mem_product, hfs] at this
    simpa using this.1
  obtain ⟨⟨p, hp, -, hp2⟩, h1'⟩ := h1 ω
  exact ⟨⟨p, hp, hp2⟩, fun p hp h => h1' p hp (hsid p hp) h⟩

/-- **C111**, normal likelihood: with draw `n` simulated at the parameters of the `n`-th posterior
draw, the point forecast is on average the scale times the average of the means of the model, and its
variance is the average noise variance divided by the number of draws. -/
theorem C111_normal {ctx : Fitted ℝ} {obs : Ω → Tensor ℝ} {fh : List τ} {f : Ω → Frame Nat τ ℝ}
    {N t : ℕ} {D : ℕ → Ω → ℝ} (h : DrawsFor P ctx obs fh f N t D) (name : String) {time : τ}
    (ht : fh[t]? = some time) {c : ℝ} (hc : ScaleIs ctx [] c) {σ m : ℕ → ℝ} {mean : ℕ → Tensor ℝ}
    (hσ : ∀ n < N, 0 < σ n) (hm : ∀ n < N, (mean n).data[t]? = some (m n)) (scale : ℝ)
    (hD : ∀ n < N, ∃ d, (univariateObs .normal (σ n) scale (mean n))[t]? = some d ∧ DrawnFrom P (D n) d) :
    PointForecast P f name time (c * ((∑ n ∈ Finset.range N, m n) / N))
      (c ^ 2 * (∑ n ∈ Finset.range N, σ n ^ 2) / N ^ 2) := by
  refine single_point h name ht hc fun n hn => ?_
  obtain ⟨d, hd, hdr⟩ := hD n hn
  have : d = .normal (m n) (σ n) := by
    simp only [univariateObs, List.getElem?_map, hm n hn, Option.map_some, Option.some.injEq] at hd
    exact hd.symm
  rw [this] at hdr
  exact drawn_normal (hσ n hn) hdr

/-- **C111**, normal likelihood and maximum a posteriori inference, where all draws are simulated at
the same parameters: the point forecast is on average exactly the scale times the mean of the model;
its standard deviation is the noise in the units of the target divided by the square root of the
number of draws. -/
theorem C111_map_normal {ctx : Fitted ℝ} {obs : Ω → Tensor ℝ} {fh : List τ} {f : Ω → Frame Nat τ ℝ}
    {N t : ℕ} {D : ℕ → Ω → ℝ} (h : DrawsFor P ctx obs fh f N t D) (name : String) {time : τ}
    (ht : fh[t]? = some time) {c : ℝ} (hc : ScaleIs ctx [] c) {σ m : ℝ} {mean : Tensor ℝ}
    (hσ : 0 < σ) (hm : mean.data[t]? = some m) (scale : ℝ)
    (hD : ∀ n < N, ∃ d, (univariateObs .normal σ scale mean)[t]? = some d ∧ DrawnFrom P (D n) d) :
    PointForecast P f name time (c * m) ((c * σ) ^ 2 / N) := by
  have h0 : (N : ℝ) ≠ 0 := Nat.cast_ne_zero.2 h.pos.ne'
  have := C111_normal h name ht hc (σ := fun _ => σ) (m := fun _ => m) (mean := fun _ => mean)
    (fun _ _ => hσ) (fun _ _ => hm) scale hD
  simp only [Finset.sum_const, Finset.card_range, nsmul_eq_mul] at this
  have e1 : c * (N * m / N) = c * m := by field_simp
  have e2 : c ^ 2 * (N * σ ^ 2) / N ^ 2 = (c * σ) ^ 2 / N := by field_simp
  rwa [e1, e2] at this

/-- **C111**, Gamma likelihood: the same where the mean of the model is at least `1e-5`. -/
theorem C111_map_gamma {ctx : Fitted ℝ} {obs : Ω → Tensor ℝ} {fh : List τ} {f : Ω → Frame Nat τ ℝ}
    {N t : ℕ} {D : ℕ → Ω → ℝ} (h : DrawsFor P ctx obs fh f N t D) (name : String) {time : τ}
    (ht : fh[t]? = some time) {c : ℝ} (hc : ScaleIs ctx [] c) {σ m : ℝ} {mean : Tensor ℝ}
    (hσ : 0 < σ) (hm : mean.data[t]? = some m) (hm0 : 1e-5 ≤ m) (scale : ℝ)
    (hD : ∀ n < N, ∃ d, (univariateObs .gamma σ scale mean)[t]? = some d ∧ DrawnFrom P (D n) d) :
    PointForecast P f name time (c * m) ((c * σ) ^ 2 / N) := by
  have h0 : (N : ℝ) ≠ 0 := Nat.cast_ne_zero.2 h.pos.ne'
  have hmp : 0 < m := lt_of_lt_of_le (by norm_num) hm0
  have := single_point h name ht hc (m := fun _ => m) (v := fun _ => σ ^ 2) (by
    intro n hn
    obtain ⟨d, hd, hdr⟩ := hD n hn
    have : d = .gamma (gammaReparametrized m σ) := by
      simp only [univariateObs, List.getElem?_map, hm, Option.map_some, Option.some.injEq] at hd
      rw [← hd, C44_identity hm0]
    rw [this] at hdr
    obtain ⟨a1, a2, a3⟩ := drawn_gamma (by simp only [gammaReparametrized]; positivity)
      (by simp only [gammaReparametrized]; positivity) hdr
    refine ⟨a1, ?_, ?_⟩
    · rw [a2]
      simp only [gammaReparametrized]
      field_simp
    · rw [a3]
      simp only [gammaReparametrized]
      field_simp)
  simp only [Finset.sum_const, Finset.card_range, nsmul_eq_mul] at this
  have e1 : c * (N * m / N) = c * m := by field_simp
  have e2 : c ^ 2 * (N * σ ^ 2) / N ^ 2 = (c * σ) ^ 2 / N := by field_simp
  rwa [e1, e2] at this

/-- **C111**, counts: the mean of the model times the scale. -/
theorem C111_map_counts {ctx : Fitted ℝ} {obs : Ω → Tensor ℝ} {fh : List τ} {f : Ω → Frame Nat τ ℝ}
    {N t : ℕ} {D : ℕ → Ω → ℝ} (h : DrawsFor P ctx obs fh f N t D) (name : String) {time : τ}
    (ht : fh[t]? = some time) (hc : ctx.discrete = true) {σ m scale : ℝ} {mean : Tensor ℝ}
    (hσ : 0 < σ) (hscale : 0 < scale) (hm : mean.data[t]? = some m) (hm0 : 1e-5 ≤ m)
    (hD : ∀ n < N, ∃ d, (univariateObs .negbinomial σ scale mean)[t]? = some d ∧ DrawnFrom P (D n) d) :
    PointForecast P f name time (m * scale) ((m * scale + (m * scale) ^ 2 / (σ * scale)) / N) := by
  have h0 : (N : ℝ) ≠ 0 := Nat.cast_ne_zero.2 h.pos.ne'
  have hmp : 0 < m := lt_of_lt_of_le (by norm_num) hm0
  have := single_point h name ht (c := 1) (Or.inl ⟨hc, rfl⟩) (m := fun _ => m * scale)
    (v := fun _ => m * scale + (m * scale) ^ 2 / (σ * scale)) (by
    intro n hn
    obtain ⟨d, hd, hdr⟩ := hD n hn
    have : d = .negBinomial2 (m * scale) (σ * scale) := by
      simp only [univariateObs, List.getElem?_map, hm, Option.map_some, Option.some.injEq] at hd
      rw [← hd, C44_identity hm0]
    rw [this] at hdr
    exact drawn_counts (mul_pos hmp hscale) (mul_pos hσ hscale) hdr)
  simp only [Finset.sum_const, Finset.card_range, nsmul_eq_mul] at this
  have e1 : 1 * (N * (m * scale) / N) = m * scale := by field_simp
  have e2 : 1 ^ 2 * (N * (m * scale + (m * scale) ^ 2 / (σ * scale))) / (N : ℝ) ^ 2
      = (m * scale + (m * scale) ^ 2 / (σ * scale)) / N := by
    generalize m * scale + (m * scale) ^ 2 / (σ * scale) = a
    field_simp
  rwa [e1, e2] at this

end

/-! ## Example: three simulations of two dates -/

open Matrix

/-- Two dates with the means 2 and 5, noise 1/2. -/
noncomputable def exMean111 : Tensor ℝ := ⟨[2, 1], [2, 5]⟩

/-- Six independent normal numbers: draw `n` for date `t` is number `2 n + t`. -/
noncomputable def exLaw111 : Measure (Fin 6 → ℝ) :=
  Measure.pi fun i => gaussianReal (if (i : ℕ) % 2 = 0 then 2 else 5) (1 / 4)

noncomputable def exObs111 (ω : Fin 6 → ℝ) : Tensor ℝ := ⟨[3, 2, 1], [ω 0, ω 1, ω 2, ω 3, ω 4, ω 5]⟩

/-- A single series in units of 10. -/
def exCtx111 : Fitted ℝ :=
  { yNlevels := 1, internalSids := [[], []], hierarchical := false, discrete := false, scale := .float 10 }

instance : IsProbabilityMeasure exLaw111 := by unfold exLaw111; infer_instance

theorem exLaw111_drawn (i : Fin 6) :
    DrawnFrom exLaw111 (fun ω => ω i) (.normal (if (i : ℕ) % 2 = 0 then 2 else 5) (1 / 2)) := by
  refine ⟨(measurable_pi_apply i).aemeasurable, ?_⟩
  have h := (measurePreserving_eval (fun i : Fin 6 =>
    gaussianReal (if (i : ℕ) % 2 = 0 then 2 else 5) (1 / 4)) i).map_eq
  unfold exLaw111
  refine h.trans ?_
  rw [gaussianReal_of_var_ne_zero _ (by norm_num)]
  congr 1
  funext y
  unfold gaussianPDF
  congr 1
  unfold gaussianPDFReal
  simp only [ObsDist.logProb, normalLP]
  have h1 : Real.log (2 * Real.pi) / 2 = Real.log (√(2 * Real.pi)) := by
    rw [Real.log_sqrt (by positivity)]
  rw [h1, Real.exp_sub, Real.exp_sub, Real.exp_log (by norm_num), Real.exp_log (by positivity)]
  have h2 : √(2 * Real.pi * ((1 / 4 : NNReal) : ℝ)) = √(2 * Real.pi) * (1 / 2) := by
    have : (2 * Real.pi * ((1 / 4 : NNReal) : ℝ)) = 2 * Real.pi * (1 / 2) ^ 2 := by
      push_cast
      ring
    rw [this, Real.sqrt_mul (by positivity), Real.sqrt_sq (by norm_num)]
  rw [h2]
  have h3 : (2 * ((1 / 4 : NNReal) : ℝ)) = 2 * (1 / 2) ^ 2 := by
    push_cast
    ring
  rw [h3]
  have := Real.sqrt_pos.2 (by positivity : (0 : ℝ) < 2 * Real.pi)
  rw [neg_div]
  field_simp

/-- The three draws of the second date. -/
def exDraw111 (n : ℕ) (ω : Fin 6 → ℝ) : ℝ := if n = 0 then ω 1 else if n = 1 then ω 3 else ω 5

theorem exDraws111 : ∃ f, DrawsFor exLaw111 exCtx111 exObs111 [7, 8] f 3 1 exDraw111 := by
  have hs : ∀ ω, ∃ g, predictSamples exCtx111 (exObs111 ω) [7, 8] = .ok g := fun ω =>
    C06_succeeds (S := 3) (k := 0) rfl (by norm_num) (by simp [exCtx111])
      (fun s _ => ⟨10, Or.inr (Or.inl ⟨rfl, rfl⟩)⟩) (Or.inr fun n => by simp [exCtx111])
      (Or.inr (Or.inr ⟨10, rfl⟩))
  choose f hf using hs
  have hind : iIndepFun (fun i (ω : Fin 6 → ℝ) => ω i) exLaw111 :=
    iIndepFun_pi (X := fun _ x => x) fun i => aemeasurable_id
  refine ⟨f, by norm_num, rfl, fun ω => by simp [exObs111, WF, size], fun ω => rfl, by decide, hf, ?_, ?_⟩
  · intro n hn ω
    interval_cases n <;> rfl
  · intro n hn n' hn' hne
    interval_cases n <;> interval_cases n' <;> first
      | exact absurd rfl hne
      | exact hind.indepFun (by decide)

/-- The point forecast for the second date is 50 on average, with variance 25/3. -/
example : ∃ f, DrawsFor exLaw111 exCtx111 exObs111 [7, 8] f 3 1 exDraw111 ∧
    PointForecast exLaw111 f "sales" 8 (10 * 5) ((10 * (1 / 2)) ^ 2 / (3 : ℕ)) := by
  obtain ⟨f, hf⟩ := exDraws111
  refine ⟨f, hf, C111_map_normal hf "sales" rfl (Or.inr (Or.inl ⟨rfl, rfl⟩)) (mean := exMean111)
    (by norm_num) rfl 1 fun n hn => ⟨.normal 5 (1 / 2), rfl, ?_⟩⟩
  interval_cases n
  · exact exLaw111_drawn 1
  · exact exLaw111_drawn 3
  · exact exLaw111_drawn 5

end PV
