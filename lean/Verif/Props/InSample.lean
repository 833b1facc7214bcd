import Verif.Lemmas.FitEffects
import Verif.Props.MultiIndex
import Verif.Props.SameBottom
import Verif.Props.SeriesOrder
import Verif.Props.UnivariateData

/-!
# C70: predicting the training period uses the design of the training period
-/

set_option linter.unusedSectionVars false

namespace PV

section
variable {S Sc τ V D K : Type} [LinearOrder τ]

/-- In a table over increasing dates, picking increasing dates one by one is filtering. -/
theorem locTimes_eq_filterTimes {x z : Frame String τ V} {ts : List τ}
    (hs : x.rows.Pairwise fun a b => a.time < b.time) (hts : ts.Pairwise (· < ·))
    (h : x.locTimes ts = .ok z) : z = x.filterTimes ts := by
  unfold Frame.locTimes at h
  split at h
  · cases h
    unfold Frame.filterTimes
    congr 1
    have key : ∀ (l : List (Row String τ V)), l.Pairwise (fun a b => a.time < b.time) →
        ∀ ts : List τ, ts.Pairwise (· < ·) →
        ts.flatMap (fun t => l.filter fun r => decide (r.time = t))
          = l.filter fun r => decide (r.time ∈ ts) := by
      intro l hl ts hts
      haveI : Std.Asymm (fun a b : Row String τ V => a.time < b.time) :=
        ⟨fun a b h1 h2 => lt_asymm h1 h2⟩
      refine List.Pairwise.eq_of_mem_iff (r := fun a b : Row String τ V => a.time < b.time) ?_
        (hl.filter _) ?_
      · rw [List.pairwise_flatMap]
        refine ⟨fun t _ => hl.filter _, hts.imp fun {a b} hab r hr r' hr' => ?_⟩
        have e1 := (List.mem_filter.1 hr).2
        have e2 := (List.mem_filter.1 hr').2
        simp only [decide_eq_true_eq] at e1 e2
        rw [e1, e2]; exact hab
      · intro r
        simp only [List.mem_flatMap, List.mem_filter, decide_eq_true_eq]
        constructor
        · rintro ⟨t, ht, hr, rfl⟩; exact ⟨hr, ht⟩
        · rintro ⟨hr, ht⟩; exact ⟨_, ht, hr, rfl⟩
    exact key _ hs _ hts
  · cases h

theorem unique_of_sorted {ts : List τ} (h : ts.Pairwise (· < ·)) : unique ts = ts :=
  unique_of_nodup (h.imp fun h => ne_of_lt h)

/-- After fitting, every effect has the class it was configured with. -/
theorem fitted_cls {Y : Type} {P : EffectClass S Y Sc τ V D K → Prop}
    {compile : String → PyM (String → Bool)} {x : Frame String τ V} {y : Y} {scale : Sc}
    {effects : List (EffectSpec S Y Sc τ V D K)} {dflt : EffectObj S Y Sc τ V D K}
    {fitted : List (FittedEffect S Y Sc τ V D K)} {ws : List EffectWarning}
    (he : ∀ e ∈ effects, P e.effect.cls) (hd : P dflt.cls)
    (h : fitEffects compile effects dflt (some x) y scale = .ok (fitted, ws)) :
    ∀ fe ∈ fitted, P fe.effect.cls := by
  obtain ⟨fes, hf, -, hcase⟩ := fitEffects_ok.1 h
  have h1 : ∀ fe ∈ fes, P fe.effect.cls := by
    clear hcase h
    induction hf with
    | nil => simp
    | cons h1 h2 ih =>
      intro fe hfe
      rcases List.mem_cons.1 hfe with rfl | hfe
      · rw [(effectFit_ok h1.2.2).1]
        exact he _ (by simp)
      · exact ih (fun e he' => he e (by simp [he'])) fe hfe
  rcases hcase with ⟨-, h⟩ | ⟨eff, -, h2, h⟩
  · rw [h]; exact h1
  · rw [h]
    intro fe hfe
    rcases List.mem_append.1 hfe with h3 | h3
    · exact h1 fe h3
    · rw [List.mem_singleton.1 h3, (effectFit_ok h2).1]
      exact hd

theorem trendFit_cls {Y : Type} {e e' : EffectObj S Y Sc τ V D K} {y : Y}
    {X : Option (Frame String τ V)} {sc : Sc} (h : e.fit y X sc = .ok e') : e'.cls = e.cls := by
  unfold EffectObj.fit at h
  cases hs : baseFit e.cls.toHooks e.st y X sc with
  | error er => simp [hs, bind, Except.bind] at h
  | ok st =>
    simp only [hs, bind, Except.bind, pure, Except.pure, Except.ok.injEq] at h
    rw [← h]

/-- **C70**, univariate forecasters: with the `X` given to `fit`, predicting the training times
hands the model the trend data and effect data it was trained on, if the feature transformer, applied
again to that `X`, gives the same table, over increasing dates. -/
theorem C70_univariate [Zero V] [Div K] {cfg : UniConfig S Sc τ V D K} {y : Frame String τ K}
    {X : Option (Frame String τ V)} {m : UniFit S Sc τ V D K}
    (htrend : cfg.trend.cls.tags.filterFh = true)
    (heff : ∀ e ∈ cfg.effects, e.effect.cls.tags.filterFh = true)
    (hdef : cfg.default.cls.tags.filterFh = true)
    (hy : y.times.Pairwise (· < ·)) {z : Frame String τ V}
    (hfit : cfg.fitFeatures (X.getD (Frame.ofIndex y.times)) = .ok z)
    (hagain : cfg.features (X.getD (Frame.ofIndex y.times)) = .ok z)
    (hz : z.rows.Pairwise fun a b => a.time < b.time) (h : uniFitData cfg y X = .ok m) :
    uniPredictData cfg m X y.times = .ok (m.trendData, m.data) := by
  unfold uniFitData at h
  simp only [bind, Except.bind, hfit] at h
  split at h
  · cases h
  rename_i tr htr
  split at h
  · cases h
  rename_i x hx
  have hxz := locTimes_eq_filterTimes hz hy hx
  subst hxz
  rw [unique_of_sorted hy] at h
  split at h
  · cases h
  rename_i td htd
  split at h
  · cases h
  rename_i fw hfw
  split at h
  · cases h
  rename_i data hdata
  split at h
  · cases h
  cases h
  have hf := fitted_cls (P := fun c => c.tags.filterFh = true) heff hdef hfw
  rw [transformEffects_filterTimes z hf] at hdata
  have htd' : tr.transform (some z) y.times = .ok td := by
    rw [← htd]
    unfold EffectObj.transform
    rw [baseTransform_filterTimes (by rw [trendFit_cls htr]; exact htrend)]
  unfold uniPredictData
  simp only [hagain, bind, Except.bind, htd', hdata, pure, Except.pure]

/-- **C70**: hence the model computes the same mean, with the same recorded sites, for the same
parameters. -/
theorem C70_mean [Zero V] [Field K] {cfg : UniConfig S Sc τ V D K} {y : Frame String τ K}
    {X : Option (Frame String τ V)} {m : UniFit S Sc τ V D K}
    (htrend : cfg.trend.cls.tags.filterFh = true)
    (heff : ∀ e ∈ cfg.effects, e.effect.cls.tags.filterFh = true)
    (hdef : cfg.default.cls.tags.filterFh = true)
    (hy : y.times.Pairwise (· < ·)) {z : Frame String τ V}
    (hfit : cfg.fitFeatures (X.getD (Frame.ofIndex y.times)) = .ok z)
    (hagain : cfg.features (X.getD (Frame.ofIndex y.times)) = .ok z)
    (hz : z.rows.Pairwise fun a b => a.time < b.time) (h : uniFitData cfg y X = .ok m)
    (θ : SiteEnv K) :
    (uniPredictData cfg m X y.times >>= fun d =>
      computeMean (m.trend.cls.call m.trend.st) d.1 d.2 (callsOf m.objs) θ)
    = computeMean (m.trend.cls.call m.trend.st) m.trendData m.data (callsOf m.objs) θ := by
  rw [C70_univariate htrend heff hdef hy hfit hagain hz h]
  rfl

end

section
variable {S Sc τ D K : Type} [Field K] [LinearOrder K] [IsStrictOrderedRing K] [LinearOrder τ]

/-- **C70**, hierarchical forecaster with exogenous variables: if the bottom series of `X` contain
every training time, predicting the training times hands the model the data it was trained on. -/
theorem C70_hierarchical {cfg : HierConfig S Sc τ D K} {y : Frame String τ K}
    {X x z : Frame String τ K} {m : HierFit S Sc τ D K} (levels : List (List String))
    (hX : X.cols ≠ []) (hx : locBottom X = .ok x) (hcov : ∀ t ∈ y.times, t ∈ x.times)
    (hfit : cfg.fitFeatures x = .ok z) (hagain : cfg.features x = .ok z) (hz : z.cols ≠ [])
    (h : hierFitData cfg y (some X) = .ok m) :
    hierPredictData cfg m levels y (some X) (unique y.times) = .ok (m.trendData, m.data) := by
  unfold hierFitData hierExog exogOr fitExpand at h
  simp only [if_neg hX, hx, hfit, if_neg hz, bind, Except.bind] at h
  split at h
  · cases h
  split at h
  · cases h
  split at h
  · cases h
  rename_i ex hex
  split at hex
  · cases hex
  rename_i st hst
  split at hex
  · cases hex
  rename_i xe hxe
  cases hex
  simp only at h
  split at h
  · cases h
  rename_i tr htr
  split at h
  · cases h
  rename_i td htd
  split at h
  · cases h
  rename_i fw hfw
  split at h
  · cases h
  rename_i data hdata
  split at h
  · cases h
  cases h
  unfold hierPredictData predictExog predictExpand
  have hall : ∀ t ∈ unique y.times, t ∈ x.times := fun t ht => hcov t (mem_unique.1 ht)
  simp only [if_neg hX, hx, if_pos hall, hagain, hxe, bind, Except.bind, htd, hdata, pure, Except.pure]

/-- A table without columns is determined by its labels. -/
theorem ofMultiIndex_index {z : Frame String τ K} (hc : z.cols = [])
    (hv : ∀ r ∈ z.rows, r.val = fun _ => 0) : z = Frame.ofMultiIndex z.nlevels z.index := by
  obtain ⟨nl, cs, rows⟩ := z
  simp only at hc
  subst hc
  unfold Frame.ofMultiIndex Frame.index
  simp only [List.map_map, Frame.mk.injEq, true_and]
  conv_lhs => rw [← List.map_id rows]
  refine List.map_congr_left fun r hr => ?_
  obtain ⟨s, t, v⟩ := r
  have := hv _ hr
  simp only at this
  simp [this]

theorem labels_eq {a b : List (List String × τ)} (ha : a.Pairwise fun u v => toLex u ≤ toLex v)
    (hb : b.Pairwise fun u v => toLex u ≤ toLex v) (hna : a.Nodup) (hnb : b.Nodup)
    (h : ∀ k, k ∈ a ↔ k ∈ b) : a = b := by
  have hp : a.Perm b := (List.perm_ext_iff_of_nodup hna hnb).2 h
  refine hp.eq_of_pairwise (le := fun u v => toLex u ≤ toLex v) ?_ ha hb
  intro u v _ _ h1 h2
  exact toLex_inj.1 (le_antisymm h1 h2)

/-- **C70**, hierarchical forecaster without exogenous variables and without feature transformer: if
every combination of labels is a series and every series has all times, predicting the training times
hands the model the data it was trained on. -/
theorem C70_hierarchical_noX_partial {cfg : HierConfig S Sc τ D K} {y : Frame String τ K}
    {m : HierFit S Sc τ D K} {levels : List (List String)} (hw : y.WF) (hn : 2 ≤ y.nlevels)
    (hres : NoReserved y) (hnd : y.index.Nodup) (hr : y.rows ≠ []) (hlev : ∀ l ∈ levels, l.Nodup)
    (hcross : ∀ s, s ∈ productAll levels ↔ ∃ r ∈ y.rows, r.sid = s)
    (hbal : ∀ r ∈ y.rows, ∀ t ∈ y.times, ∃ r' ∈ y.rows, r'.sid = r.sid ∧ r'.time = t)
    (hfit : ∀ x, cfg.fitFeatures x = .ok x)
    (h : hierFitData cfg y none = .ok m) :
    hierPredictData cfg m levels y none (unique y.times) = .ok (m.trendData, m.data) := by
  -- the table used when fitting
  obtain ⟨hp, -, hs⟩ := C10_aggregate_coherent cfg.keep hw (by omega) hres
  obtain ⟨hwA, hlA, -⟩ := aggregate_wf cfg.keep hw
  set A := aggregate cfg.keep y with hA
  set F : Frame String τ K := Frame.ofMultiIndex A.nlevels A.index with hF
  have hFrows : F.rows = A.rows.map fun r => ⟨r.sid, r.time, fun _ => 0⟩ := by
    simp [hF, Frame.ofMultiIndex, Frame.index, Function.comp_def]
  have hFidx : F.index = A.index := by
    simp [Frame.index, hFrows, Function.comp_def]
  have hFw : F.WF := by
    intro r hr
    rw [hFrows] at hr
    obtain ⟨r', hr', rfl⟩ := List.mem_map.1 hr
    exact hwA r' hr'
  obtain ⟨r0, hr0⟩ := List.exists_mem_of_ne_nil _ hr
  have hFb : ∃ r ∈ F.rows, r.sid.getLast? ≠ some "__total" := by
    have := hp.mem_iff.2 hr0
    obtain ⟨h1, h2⟩ := List.mem_filter.1 this
    exact ⟨⟨r0.sid, r0.time, fun _ => 0⟩, by rw [hFrows]; exact List.mem_map.2 ⟨r0, h1, rfl⟩,
      by simpa using h2⟩
  have hx := C52_drops_aggregates hFw (by show 2 ≤ A.nlevels; omega) hFb
  set x : Frame String τ K :=
    { F with rows := F.rows.filter fun r => r.sid.getLast? ≠ some "__total" } with hxd
  have hxi : x.index.Perm y.index := by
    have : x.index = (A.rows.filter fun r => r.sid.getLast? ≠ some "__total").map
        fun r => (r.sid, r.time) := by
      simp only [Frame.index, hxd, hFrows, List.filter_map, List.map_map]
      rfl
    rw [this]
    exact hp.map _
  have hxs : x.index.Pairwise fun u v => toLex u ≤ toLex v := by
    rw [← hFidx] at hs
    exact hs.sublist (List.filter_sublist.map _)
  -- the table used when predicting
  set Z : Frame String τ K :=
    Frame.ofMultiIndex y.nlevels (product (productAll levels) (unique y.times)) with hZ
  have hZrows : ∀ r ∈ Z.rows, (∃ r' ∈ y.rows, r'.sid = r.sid) ∧ r.val = fun _ => 0 := by
    intro r hr
    obtain ⟨k, hk, rfl⟩ := List.mem_map.1 hr
    exact ⟨(hcross k.1).1 (mem_product.1 hk).1, rfl⟩
  have hZi : Z.index = product (productAll levels) (unique y.times) := by
    simp [hZ, Frame.ofMultiIndex, Frame.index, Function.comp_def]
  have hZw : Z.WF := by
    intro r hr
    obtain ⟨⟨r', hr', e⟩, -⟩ := hZrows r hr
    rw [← e]
    exact hw r' hr'
  have hZres : NoReserved Z := by
    intro r hr
    obtain ⟨⟨r', hr', e⟩, -⟩ := hZrows r hr
    rw [← e]
    exact hres r' hr'
  have hZne : Z.rows ≠ [] := by
    have : (r0.sid, r0.time) ∈ Z.index := by
      rw [hZi]
      exact mem_product.2 ⟨(hcross _).2 ⟨r0, hr0, rfl⟩, mem_unique.2 (List.mem_map.2 ⟨r0, hr0, rfl⟩)⟩
    obtain ⟨r, hr, -⟩ := List.mem_map.1 this
    exact List.ne_nil_of_mem hr
  obtain ⟨x', hx', hl', hc', hp', hs', -⟩ := C52_undoes_aggregation cfg.keep hZw
    (by show 2 ≤ y.nlevels; omega) hZres hZne
  have hZnd : Z.index.Nodup := by
    rw [hZi]
    exact nodup_product (nodup_productAll hlev) (nodup_unique _)
  have hxx : x = x' := by
    have e1 : x = Frame.ofMultiIndex x.nlevels x.index := ofMultiIndex_index rfl (by
      intro r hr
      have := List.mem_of_mem_filter hr
      rw [hFrows] at this
      obtain ⟨r', -, rfl⟩ := List.mem_map.1 this
      rfl)
    have e2 : x' = Frame.ofMultiIndex x'.nlevels x'.index := ofMultiIndex_index hc' (by
      intro r hr
      exact (hZrows r (hp'.mem_iff.1 hr)).2)
    have hxi' : x'.index.Perm Z.index := hp'.map _
    have e3 : x.index = x'.index := by
      refine labels_eq hxs hs' (hxi.nodup_iff.2 hnd) (hxi'.nodup_iff.2 hZnd) fun k => ?_
      rw [hxi.mem_iff, hxi'.mem_iff, hZi, mem_product, hcross, mem_unique]
      constructor
      · intro hk
        obtain ⟨r, hr, rfl⟩ := List.mem_map.1 hk
        exact ⟨⟨r, hr, rfl⟩, List.mem_map.2 ⟨r, hr, rfl⟩⟩
      · rintro ⟨⟨r, hr, e⟩, ht⟩
        obtain ⟨r', hr', e1, e2⟩ := hbal r hr _ ht
        exact List.mem_map.2 ⟨r', hr', by rw [e1, e, e2]⟩
    rw [e1, e2, e3]
    congr 1
    show A.nlevels = x'.nlevels
    rw [hl', hlA]; rfl
  have hemp : emptyExog cfg.keep levels y (unique y.times) = .ok (aggregate cfg.keep Z) := by
    unfold emptyExog reindexTimeSeries Frame.reindex
    rw [if_neg (by omega), if_pos hnd]
    simp only [Except.map]
    congr 2
    simp [hZ, Frame.index, Function.comp_def]
  unfold hierFitData hierExog exogOr fitExpand at h
  simp only [← hA, ← hF, hx, hfit, bind, Except.bind] at h
  split at h
  · cases h
  split at h
  · cases h
  rw [if_pos (show x.cols = [] from rfl)] at h
  simp only at h
  split at h
  · cases h
  rename_i tr htr
  split at h
  · cases h
  rename_i td htd
  split at h
  · cases h
  rename_i fw hfw
  split at h
  · cases h
  rename_i data hdata
  split at h
  · cases h
  cases h
  unfold hierPredictData predictExog predictExpand
  rw [hxx] at htd hdata
  simp only [hemp, hx', bind, Except.bind, htd, hdata, pure, Except.pure]

end
/-! Examples: the forecaster of `C66` with an `X` that also covers time 3, and the hierarchical
forecaster of `C55` with and without `X`. -/

example : ((uniFitData exCfg66 exY66 (some exX66)).toOption.map fun m => (m.trendData, m.data))
    = some (.data ⟨[2, 1], [10, 20]⟩,
        [("exogenous_variables_effect", .data ⟨[2, 1], [10, 20]⟩)]) := by decide +kernel

example {m} (h : uniFitData exCfg66 exY66 (some exX66) = .ok m) :
    uniPredictData exCfg66 m (some exX66) [1, 2] = .ok (m.trendData, m.data) :=
  C70_univariate (y := exY66) (z := exX66) rfl (by simp [exCfg66]) rfl (by decide) rfl rfl
    (by decide) h

example : (hierFitData exHier exHierY (some exHierX)).toOption.isSome = true := by decide +kernel

example {m} (h : hierFitData exHier exHierY (some exHierX) = .ok m) :
    hierPredictData exHier m [["a", "b"]] exHierY (some exHierX) [1, 2]
      = .ok (m.trendData, m.data) :=
  C70_hierarchical (y := exHierY) _ (by decide)
    (C52_drops_aggregates (by simp [Frame.WF, exHierX]) (by decide)
      ⟨⟨["a"], 1, fun _ => 1⟩, by simp [exHierX], by decide⟩)
    (by decide) rfl rfl (by decide) h

example : (hierFitData exHier exHierY none).toOption.isSome = true := by decide +kernel

example {m} (h : hierFitData exHier exHierY none = .ok m) :
    hierPredictData exHier m [["a", "b"]] exHierY none [1, 2] = .ok (m.trendData, m.data) :=
  C70_hierarchical_noX_partial (y := exHierY) (by simp [Frame.WF, exHierY]) (by decide)
    (by simp [NoReserved, exHierY]) (by decide) (by decide) (by decide)
    (by intro s; simp [productAll, exHierY, eq_comm])
    (by simp [exHierY, Frame.times]) (fun _ => rfl) h

end PV
