import Verif.Props.Posterior

/-!
# C85: the log density is defined for all parameters of the right sizes
-/

set_option linter.unusedSectionVars false

namespace PV
open Tensor

section
variable {D : Type}

/-- A run of the model succeeds if the statements and values of trend and effects are defined and
every effect has the shape of the trend. -/
theorem runMean_succeeds {trend : EffectCall D ℝ} {tp : Priors D} {td : D} {data : PyDict D}
    {effects : PyDict (EffectCall D ℝ)} {pr : String → Priors D} {θ : SiteEnv ℝ}
    (htr : "trend" ∉ effects.map Prod.fst) {ts : List Stmt} {t : Tensor ℝ}
    (h1 : tp θ td [] = .ok ts) (h2 : trend θ td [] = .ok t) (hw : t.WF)
    (h3 : ∀ e ∈ effects, ∃ d, data.get? e.1 = some d ∧ ∀ p : PyDict (Tensor ℝ),
      p.get? "trend" = some t → (∃ ss, pr e.1 (θ.scope e.1) d p = .ok ss) ∧
        ∃ v, e.2 (θ.scope e.1) d p = .ok v ∧ v.shape = t.shape ∧ v.WF) :
    ∃ r, runMean trend tp td data effects pr θ = .ok r ∧ r.1.mean.shape = t.shape ∧ r.1.mean.WF := by
  unfold runMean
  simp only [bind, Except.bind, h1, h2]
  suffices H : ∀ (l : PyDict (EffectCall D ℝ)) (st : MeanState ℝ) (acc : List Stmt),
      (∀ e ∈ l, e ∈ effects) → st.mean.shape = t.shape → st.mean.WF →
      st.predicted.get? "trend" = some t →
      ∃ r, l.foldlM (runStep θ data pr) (st, acc) = .ok r ∧ r.1.mean.shape = t.shape ∧ r.1.mean.WF from
    H effects _ _ (fun _ h => h) rfl hw rfl
  intro l
  induction l with
  | nil => intro st acc _ hs hw' _; exact ⟨_, rfl, hs, hw'⟩
  | cons e l ih =>
    intro st acc hl hs hw' hp
    have he := hl e (by simp)
    obtain ⟨d, hd, hd'⟩ := h3 e he
    obtain ⟨⟨ss, hss⟩, v, hv, hvs, hvw⟩ := hd' _ hp
    have hg : data.getItem e.1 = .ok d := PyDict.getItem_ok.2 hd
    have hb := binop_same_eq (· + ·) hw' hvw (hvs.trans hs.symm)
    rw [List.foldlM_cons]
    simp only [bind, Except.bind, runStep, meanStep, hg, hss, hv, hb, pure, Except.pure]
    refine ih _ _ (fun e' h => hl e' (by simp [h])) hs ?_ ?_
    · show (List.zipWith _ _ _).length = _
      rw [List.length_zipWith, show v.data.length = size v.shape from hvw, hvs, ← hs,
        show st.mean.data.length = size st.mean.shape from hw', Nat.min_self]
    · simp only [PyDict.get?_set]
      rw [if_neg (fun h : e.1 = "trend" => htr (h ▸ List.mem_map.2 ⟨e, he, rfl⟩))]
      exact hp

theorem logJoint_succeeds {lik : Likelihood} {ns scale : ℝ} {y : List ℝ} {trend : EffectCall D ℝ}
    {tp : Priors D} {td : D} {data : PyDict D} {effects : PyDict (EffectCall D ℝ)}
    {pr : String → Priors D} {θ : SiteEnv ℝ} {r : MeanState ℝ × List Stmt}
    (hr : runMean trend tp td data effects pr θ = .ok r) (hl : y.length = r.1.mean.data.length)
    (hσ : (θ "noise_scale").data.length = 1) :
    ∃ L, logJoint lik ns scale y trend tp td data effects pr θ = .ok L := by
  unfold logJoint modelStmts
  simp only [bind, Except.bind, hr, obsStmts, sampleSite, List.length_cons, List.length_nil, zero_add,
    hσ, if_true, observeSite]
  rw [if_pos (by rw [hl]; cases lik <;> simp [univariateObs])]
  exact ⟨_, rfl⟩

end

section
variable {τ : Type} [LinearOrder τ]

/-- The data of an effect that takes part: one row per date, one entry per column. -/
theorem effect_rows {S Y Sc K D' : Type} [Zero K] {e : EffectObj S Y Sc τ K (Tensor K) D'}
    (hfl : e.cls.tags.filterFh = true)
    (htf : ∀ s x fh, e.cls.transform s x fh = x.seriesToTensorOrArray)
    {cs : List String} (hst : e.st.1.inputCols = some cs) (hne : ¬ (cs.isEmpty ∧ e.cls.tags.skipIfNoMatch))
    {x : Frame String τ K} {fh : List τ} {d : Transformed (Tensor K)} (hx : DatesIn x fh)
    (htr : e.transform (some x) fh = .ok d) :
    d = .data ⟨[(fh.map fun t => cs.map (rowAt x t)).length, cs.length],
      (fh.map fun t => cs.map (rowAt x t)).flatten⟩ := by
  unfold EffectObj.transform at htr
  rcases hst' : e.st.1 with ⟨ic, isf⟩
  rw [hst'] at hst
  simp only at hst
  subst hst
  have hbad : isf ≠ some true → False := by
    intro hb
    unfold baseTransform shouldSkip at htr
    rw [hst'] at htr
    match isf, hb with
    | none, _ => cases htr
    | some false, _ => cases htr
    | some true, hb => simp at hb
  match isf, hst', hbad with
  | none, _, hbad => exact (hbad (by simp)).elim
  | some false, _, hbad => exact (hbad (by simp)).elim
  | some true, hst, _ =>
    rw [baseTransform_eq _ hst] at htr
    split at htr
    · rename_i h
      exact absurd h (by simpa using hne)
    · split at htr
      · simp only [hfl, if_true, htf] at htr
        have hrows : ((x.filterTimes fh).rows.map fun r => cs.map r.val)
            = fh.map fun t => cs.map (rowAt x t) := by
          have h1 : (x.filterTimes fh).rows.map Row.time = fh :=
            times_filtered hx.sorted hx.horizon hx.covers
          conv_rhs => rw [← h1, List.map_map]
          refine List.map_congr_left fun r hr => ?_
          simp only [Function.comp]
          rw [rowAt_of_mem hx.sorted (List.mem_of_mem_filter hr)]
        unfold Frame.seriesToTensorOrArray at htr
        rw [if_pos (by exact hx.flat)] at htr
        simp only [Except.map, Except.ok.injEq] at htr
        rw [← htr, ← hrows, Frame.flatVals, List.length_map, List.flatMap_def]
      · cases htr

theorem kept_nonempty {S Y Sc V D K : Type} {fitted : List (FittedEffect S Y Sc τ V D K)}
    {fe : FittedEffect S Y Sc τ V D K} (hk : fe ∈ kept fitted)
    (hst : fe.effect.st.1.inputCols = some fe.cols) :
    ¬ (fe.cols.isEmpty ∧ fe.effect.cls.tags.skipIfNoMatch) := by
  have := (List.mem_filter.1 hk).2
  simp only [EffectObj.skip, shouldSkip, hst, decide_eq_true_eq, Except.ok.injEq,
    Bool.and_eq_false_iff] at this
  rintro ⟨h1, h2⟩
  rcases this with h | h
  · rw [h1] at h; cases h
  · rw [h2] at h; cases h

/-- A linear effect has a value if it has one coefficient per column. -/
theorem linear_call_ok {S : Type} {e : EffectObj S (Frame String τ ℝ) (Scale ℝ) τ ℝ (Tensor ℝ) ℝ}
    {mode : String} (hc : e.cls = linearClass mode) {rows : List (List ℝ)} {k : Nat}
    {θ : SiteEnv ℝ} (hθ : (θ "coefs").data.length = k) {n : Nat} (hr : rows.length = n)
    {p : PyDict (Tensor ℝ)} {tr : List ℝ} (htr : tr.length = n) (hp : p.get? "trend" = some (columnOf tr)) :
    ∃ v, e.cls.call e.st θ (.data ⟨[rows.length, k], rows.flatten⟩) p = .ok v ∧
      v.shape = (columnOf tr).shape ∧ v.WF := by
  have hx : linearRaw θ (.data ⟨[rows.length, k], rows.flatten⟩) p = .ok ⟨[rows.length] ++ [1],
      (List.range rows.length).map fun i => dot (chunk rows.flatten k i) (θ "coefs").data⟩ := by
    simp [linearRaw, Transformed.array, bind, Except.bind, dotLast, hθ, pure, Except.pure, size]
  rw [hc]
  show ∃ v, AddMul.call ⟨mode, linearRaw⟩ θ _ p = _ ∧ _
  rw [addMul_predict_unfold hp (columnOf_wf _) hx]
  rw [if_pos (by simp [columnOf, htr, hr])]
  split
  · exact ⟨_, rfl, rfl, by simp [WF, columnOf, size, trendShape, htr, hr]⟩
  · exact ⟨_, rfl, rfl, by simp [WF, columnOf, size, trendShape, htr, hr]⟩

/-- The sizes of the parameters of a forecaster with piecewise linear trend and linear effects over
one series: an offset, one coefficient per changepoint, one noise level, one coefficient per column
of every effect that takes part. -/
structure ProphetSizes {S Y Sc V D K : Type} (cs : List ℝ) (l : List (FittedEffect S Y Sc τ V D K))
    (θ : SiteEnv ℝ) : Prop where
  trend : SingleSites cs θ
  noise : (θ "noise_scale").data.length = 1
  coefs : ∀ fe ∈ l, (θ (fe.name ++ "/coefs")).data.length = fe.cols.length

/-- **C85**: the log density of `C85_prophet` is defined for all values of the parameters that have
the right sizes. -/
theorem C85_defined {days : τ → ℝ} {suggest : List ℝ → Tensor ℝ → PyM (List ℝ × List ℝ)}
    {p : PiecewiseParams ℝ τ} (hsq : p.squeeze = true) {i r b : ℝ} (hi : p.interval = .scalar i)
    (hr : p.range = .scalar r) (hb : p.priorScale = .scalar b)
    {cfg : UniConfig (Option (PiecewiseState ℝ τ)) (Scale ℝ) τ ℝ (Tensor ℝ) ℝ}
    (htrend : cfg.trend = (piecewiseClass days suggest piecewisePredict p).new)
    {mode : String → String}
    (heff : ∀ e ∈ cfg.effects, e.effect.cls = linearClass (mode e.name))
    (hdef : cfg.default.cls = linearClass (mode "exogenous_variables_effect"))
    (hn : (cfg.effects.map EffectSpec.name).Nodup)
    (hres : "exogenous_variables_effect" ∉ cfg.effects.map EffectSpec.name)
    (hnt : "trend" ∉ cfg.effects.map EffectSpec.name)
    {y : Frame String τ ℝ} {c : String} (hyl : y.nlevels = 1) (hyc : y.cols = [c])
    (hys : y.rows.Pairwise fun a b => a.time < b.time)
    {X : Option (Frame String τ ℝ)} {x0 x : Frame String τ ℝ}
    (hx0 : cfg.fitFeatures (X.getD (Frame.ofIndex y.times)) = .ok x0)
    (hx : x0.locTimes y.times = .ok x) (hdates : DatesIn x y.times)
    {m : UniFit (Option (PiecewiseState ℝ τ)) (Scale ℝ) τ ℝ (Tensor ℝ) ℝ}
    (hfit : uniFitData cfg y X = .ok m) :
    ∃ s cs, m.trend.st.2 = some s ∧ s.cps = [cs] ∧
      (s.offsetLoc.length = 1 → s.rates ≠ [] →
      ∀ (lik : Likelihood) (ns scale os : ℝ) (prior : String → ℝ → ℝ) (θ : SiteEnv ℝ),
      ProphetSizes cs (kept m.fitted) θ →
      ∃ L, logJoint lik ns scale m.yArray (m.trend.cls.call m.trend.st)
        (piecewisePriors os m.trend.st.2) m.trendData m.data (callsOf m.objs)
        (fun n => linearPriors (prior n)) θ = .ok L) := by
  obtain ⟨yT, x0', x', hyT, htf, hx0', hx', htd, hfe, hdata, hobjs, hya⟩ := uniFitData_ok hfit
  rw [hx0] at hx0'
  cases hx0'
  rw [hx] at hx'
  cases hx'
  have hnd : y.times.Nodup := by
    unfold Frame.times
    exact (List.pairwise_map.2 hys).imp fun h => h.ne
  rw [unique_of_nodup hnd] at htd hdata
  rw [htrend] at htf
  obtain ⟨s, cs, hs, hcs, hpw⟩ := C71_piecewise_fitted hsq hi hr (by rw [hyT, hyl]) htf
  refine ⟨s, cs, hs, hcs, ?_⟩
  intro hoff hrates lik ns scale os prior θ hθ
  obtain ⟨hn', htr'⟩ := C17_names hn hres hnt hfe
  have hmem : ∀ fe ∈ kept m.fitted, fe.effect.cls = linearClass (mode fe.name) ∧
      fe.effect.st.1.inputCols = some fe.cols := by
    intro fe hk
    obtain ⟨h1, b', h2⟩ := fitEffects_mem hfe fe (List.mem_of_mem_filter hk)
    have h3 : fe.effect.cls = linearClass (mode fe.name) := by
      rcases h1 with ⟨e, he, hne, hcl⟩ | ⟨hne, hcl⟩
      · rw [hcl, heff e he, hne]
      · rw [hcl, hdef, hne]
    exact ⟨h3, kept_cols hk (by rw [h3]; rfl) h2⟩
  obtain ⟨hcl, s', hs', hpf⟩ := piecewise_fit_state htf
  rw [hs] at hs'
  cases hs'
  obtain ⟨hpl, hps⟩ := piecewiseFit_priors hpf
  obtain ⟨⟨o, ho⟩, hlδ⟩ := hθ.trend
  -- the statements of the trend
  have h1 : ∃ ts, piecewisePriors os m.trend.st.2 θ m.trendData [] = .ok ts := by
    rw [hs]
    simp only [piecewisePriors, bind, Except.bind, sampleSite]
    rw [if_pos (by rw [ho]; simp [hoff]), if_pos]
    · exact ⟨_, rfl⟩
    · rw [hpl, hps, hcs, hb, hlδ]
      match s.rates, hrates with
      | _ :: _, _ => simp [priorVectors, ScalarOr.toList]
  obtain ⟨ts, h1⟩ := h1
  -- the value of the trend
  have h2 : ∃ t, m.trend.cls.call m.trend.st θ m.trendData [] = .ok t := by
    obtain ⟨cols, mm, hmd, hm⟩ := trend_transform_data (by rw [hcl]; rfl) (by rw [hcl]; rfl) htd
    rw [hcl, hs] at hm
    rw [hcl, hmd]
    simp only [piecewiseClass, hs, hsq] at hm ⊢
    unfold piecewiseTransform at hm
    rw [hcs] at hm
    obtain ⟨rr, h, -⟩ := C38_single (n := s.time.nSeries) (p := []) hm hlδ.symm rfl ho
    exact ⟨rr, h⟩
  obtain ⟨t, h2⟩ := h2
  have htc := hpw θ x y.times _ t hθ.trend hdates htd h2
  obtain ⟨hobj, hdat⟩ := transformEffects_get hn' hdata hobjs
  have hcalls : callsOf m.objs
      = (kept m.fitted).map fun fe => (fe.name, fe.effect.cls.call fe.effect.st) := by
    rw [hobj]
    simp [callsOf, Function.comp_def]
  have hsc : ∀ n, θ.scope n "coefs" = θ (n ++ "/coefs") := by
    intro n
    unfold SiteEnv.scope
    rw [String.append_assoc]
    rfl
  obtain ⟨rr, hrun, hsh, hw⟩ := runMean_succeeds (pr := fun n => linearPriors (prior n))
    (effects := callsOf m.objs) (data := m.data) (by
      rw [hcalls]
      intro h
      obtain ⟨a, ha, hb⟩ : ∃ a ∈ kept m.fitted, a.name = "trend" := by
        simpa [Function.comp_def] using h
      exact htr' (List.mem_map.2 ⟨a, List.mem_of_mem_filter ha, hb⟩)) h1 h2
    (by rw [htc]; exact columnOf_wf _) (by
      intro e he
      rw [hcalls] at he
      obtain ⟨fe, hk, rfl⟩ := List.mem_map.1 he
      obtain ⟨xc, d, hxc, hd, hdd⟩ := hdat fe hk
      refine ⟨d, hdd, fun p hp => ?_⟩
      have hde := effect_rows (by rw [(hmem fe hk).1]; rfl) (by rw [(hmem fe hk).1]; intros; rfl)
        (hmem fe hk).2 (kept_nonempty hk (hmem fe hk).2) (hdates.select hxc) hd
      have hco : (θ.scope fe.name "coefs").data.length = fe.cols.length := by
        rw [hsc]
        exact hθ.coefs fe hk
      refine ⟨?_, ?_⟩
      · rw [hde]
        simp only [linearPriors, Transformed.array, bind, Except.bind, sampleSite]
        rw [if_pos (by simp [hco])]
        exact ⟨_, rfl⟩
      · rw [hde, htc]
        exact linear_call_ok (hmem fe hk).1 hco (n := y.times.length) (by simp) (by simp)
          (by rw [hp, htc]))
  refine logJoint_succeeds hrun ?_ hθ.noise
  rw [show rr.1.mean.data.length = size rr.1.mean.shape from hw, hsh, htc, hya]
  unfold Frame.flatVals
  rw [hyc]
  simp [columnOf, size, Frame.times]

/-- The example of `C85_prophet` has a density for every parameter of the right sizes. -/
example : ProphetSizes [0] exM85.fitted exθ85 :=
  ⟨⟨⟨1, rfl⟩, rfl⟩, rfl, by
    intro fe h
    simp only [exM85, List.mem_singleton] at h
    subst h
    rfl⟩

end
end PV
