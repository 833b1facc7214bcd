import Verif.Props.Multivariate
import Verif.Props.Panel
import Verif.Props.SameBottom
import Verif.Props.SeriesOrder

/-!
# C68: what `HierarchicalProphet` hands to the likelihood

The theorems of `Props/Multivariate.lean` are about arrays and the flag `is_single_series`; here the
arrays and the flag are those computed from the target.
-/

namespace PV
section
variable {S Sc τ D K : Type} [Field K] [LinearOrder K] [IsStrictOrderedRing K] [LinearOrder τ]

/-- The number of series a target describes: one without series labels, otherwise the distinct labels
that are not aggregates. -/
def bottomCount {ι V : Type} (y : Frame ι τ V) : Nat :=
  if y.nlevels = 1 then 1
  else ((y.rows.filter fun r => "__total" ∉ r.sid).map Row.sid).toFinset.card

theorem hierFitData_parts {cfg : HierConfig S Sc τ D K} {y : Frame String τ K}
    {X : Option (Frame String τ K)} {m : HierFit S Sc τ D K} (hm : hierFitData cfg y X = .ok m) :
    ∃ yB, locBottom (aggregate cfg.keep y) = .ok yB ∧ yB.seriesToTensor = .ok m.yArray ∧
      m.single = decide (nSeries (aggregate cfg.keep y).nlevels
        ((aggregate cfg.keep y).index.map Prod.fst) = 1) := by
  unfold hierFitData at hm
  simp only [bind, Except.bind, pure, Except.pure] at hm
  repeat' split at hm
  all_goals first
    | cases hm
    | skip
  all_goals exact ⟨_, by assumption, by assumption, rfl⟩

/-- Rows of the aggregated target that do not end in `__total` are its bottom rows. -/
theorem aggregate_bottom (keep : List String → Bool) {y : Frame String τ K} (hn : 2 ≤ y.nlevels) :
    ∀ r ∈ (aggregate keep y).rows, (r.sid.getLast? ≠ some "__total" ↔ "__total" ∉ r.sid) := by
  intro r hr
  rw [aggregate_eq keep (by omega)] at hr
  have hr := (sortIndex_perm _).mem_iff.1 hr
  rcases List.mem_append.1 hr with hr | hr
  · have := (List.mem_filter.1 hr).2
    simp only [decide_eq_true_eq] at this
    exact ⟨fun _ => this, fun h h' => h (List.mem_of_getLast? h')⟩
  · obtain ⟨i, hi, hr⟩ := List.mem_flatMap.1 (List.mem_of_mem_filter hr)
    rw [List.mem_range] at hi
    unfold aggLevel at hr
    obtain ⟨g, -, rfl⟩ := List.mem_map.1 hr
    have : (g.1 ++ List.replicate (y.nlevels - 1 - i) totalLabel).getLast? = some "__total" := by
      simp only [totalLabel, List.getLast?_append, List.getLast?_replicate]
      rw [if_neg (by omega)]
      rfl
    simp only [this, ne_eq, not_true_eq_false, false_iff, not_not]
    exact List.mem_of_getLast? this

theorem nSeries_aggregate (keep : List String → Bool) {y : Frame String τ K} (hw : y.WF) :
    nSeries (aggregate keep y).nlevels ((aggregate keep y).index.map Prod.fst) = bottomCount y := by
  obtain ⟨-, hlv, -⟩ := aggregate_wf keep hw
  unfold nSeries bottomCount
  rw [hlv]
  by_cases hn : y.nlevels = 1
  · rw [if_pos hn, if_pos hn]
  rw [if_neg hn, if_neg hn]
  by_cases hr : y.rows = []
  · have : aggregate keep y = { y with rows := [] } := by
      rw [aggregate_eq keep hn]
      have hb : bottomRows y = [] := by unfold bottomRows; rw [hr]; rfl
      rw [hb]
      have : aggRows (ι := String) (τ := τ) (K := K) keep (y.nlevels - 1) [] = [] := by
        simp [aggRows, aggLevel, unique]
      rw [this]
      rfl
    rw [this, hr]
    rfl
  have hn2 : 2 ≤ y.nlevels := by
    obtain ⟨r, hr⟩ := List.exists_mem_of_ne_nil _ hr
    have := hw r hr
    omega
  have hnd : (filterSeriesTuples true (unique ((aggregate keep y).index.map Prod.fst))).Nodup := by
    unfold filterSeriesTuples
    rw [if_pos rfl]
    exact (nodup_unique _).sublist List.filter_sublist
  rw [← List.toFinset_card_of_nodup hnd]
  congr 1
  ext s
  rw [List.mem_toFinset, List.mem_toFinset]
  unfold filterSeriesTuples
  rw [if_pos rfl, List.mem_filter, mem_unique, sids_of_index, List.mem_map, List.mem_map]
  have hp := bottomRows_aggregate keep (f := y) hn
  constructor
  · rintro ⟨⟨r, hr, rfl⟩, h⟩
    refine ⟨r, hp.mem_iff.1 (List.mem_filter.2 ⟨hr, ?_⟩), rfl⟩
    have := (aggregate_bottom keep hn2 r hr).1 (of_decide_eq_true h)
    simpa using this
  · rintro ⟨r, hr, rfl⟩
    obtain ⟨h1, h2⟩ := List.mem_filter.1 (hp.mem_iff.2 hr)
    refine ⟨⟨r, h1, rfl⟩, ?_⟩
    have := (aggregate_bottom keep hn2 r h1).2 (by simpa using h2)
    exact decide_eq_true this

/-- **C68**, the flag: `is_single_series` is set exactly when the target has one bottom series.
Aggregates in the target do not count. -/
theorem C68_single_flag {cfg : HierConfig S Sc τ D K} {y : Frame String τ K} (hw : y.WF)
    {X : Option (Frame String τ K)} {m : HierFit S Sc τ D K} (hm : hierFitData cfg y X = .ok m) :
    m.single = true ↔ bottomCount y = 1 := by
  obtain ⟨-, -, -, h⟩ := hierFitData_parts hm
  rw [h, nSeries_aggregate cfg.keep hw, decide_eq_true_eq]

/-- **C68**, the observed array: one block per bottom series, one column. -/
theorem C68_array {cfg : HierConfig S Sc τ D K} {y : Frame String τ K} (hw : y.WF)
    {c : String} (hc : y.cols = [c]) {X : Option (Frame String τ K)} {m : HierFit S Sc τ D K}
    (hm : hierFitData cfg y X = .ok m) :
    m.yArray.WF ∧ ∃ T, m.yArray.shape = [bottomCount y, T, 1] := by
  obtain ⟨yB, h1, h2, -⟩ := hierFitData_parts hm
  obtain ⟨hwA, hlv, hco⟩ := aggregate_wf cfg.keep hw
  by_cases hn : y.nlevels = 1
  · have : yB = y := by
      have ha : aggregate cfg.keep y = y := by unfold aggregate; rw [if_pos hn]
      rw [ha, C52_flat hn] at h1
      cases h1
      rfl
    subst this
    obtain ⟨t, h3, h4, h5, -⟩ := C53_flat hn (by rw [hc]; simp)
    rw [h2] at h3
    cases h3
    refine ⟨h4, yB.rows.length, ?_⟩
    rw [h5, hc, bottomCount, if_pos hn]
    rfl
  have hn2 : 2 ≤ y.nlevels := by
    by_contra hlt
    have hall : (aggregate cfg.keep y).rows = [] := by
      rw [List.eq_nil_iff_forall_not_mem]
      intro r hr
      have := hwA r hr
      omega
    have : locBottom (aggregate cfg.keep y) = .error .indexError := by
      unfold locBottom getBottomSeriesIdx
      rw [if_neg (by omega), if_neg (by omega)]
      simp [bind, Except.bind, Frame.series, hall, unique, getMultiindexLoc]
    rw [this] at h1
    cases h1
  by_cases hb : ∃ r ∈ (aggregate cfg.keep y).rows, r.sid.getLast? ≠ some "__total"
  · rw [C52_drops_aggregates hwA (by omega) hb] at h1
    cases h1
    obtain ⟨r, hr, hrb⟩ := hb
    obtain ⟨h3, T, h4, -⟩ := C53_entries (by simp only; omega)
      (List.ne_nil_of_mem (List.mem_filter.2 ⟨hr, by simpa using hrb⟩)) h2
    refine ⟨h3, T, ?_⟩
    rw [h4, hco, hc]
    congr 1
    unfold seriesCount bottomCount
    rw [if_neg hn]
    congr 1
    ext s
    have hp := bottomRows_aggregate cfg.keep (f := y) hn
    simp only [List.mem_toFinset, List.mem_map]
    constructor
    · rintro ⟨r, hr, rfl⟩
      obtain ⟨hr1, hr2⟩ := List.mem_filter.1 hr
      refine ⟨r, hp.mem_iff.1 (List.mem_filter.2 ⟨hr1, ?_⟩), rfl⟩
      have := (aggregate_bottom cfg.keep hn2 r hr1).1 (by simpa using hr2)
      simpa using this
    · rintro ⟨r, hr, rfl⟩
      obtain ⟨hr1, hr2⟩ := List.mem_filter.1 (hp.mem_iff.2 hr)
      refine ⟨r, List.mem_filter.2 ⟨hr1, ?_⟩, rfl⟩
      have := (aggregate_bottom cfg.keep hn2 r hr1).2 (by simpa using hr2)
      simpa using this
  · push Not at hb
    rw [C52_no_bottom hwA (by omega) hb] at h1
    cases h1

/-- **C68**, from the target to the likelihood: with the flag and the array computed from the target
and any mean with one entry per series and time, the model compares the observation of series `i` at
the `j`-th time with the mean of series `i` at the `j`-th time. -/
theorem C68_fit {cfg : HierConfig S Sc τ D K} {y : Frame String τ K} (hw : y.WF)
    {c : String} (hc : y.cols = [c]) {X : Option (Frame String τ K)} {m : HierFit S Sc τ D K}
    (hm : hierFitData cfg y X = .ok m) {mean : Tensor K} (hs : mean.shape = m.yArray.shape)
    (hmw : mean.WF) :
    ∃ T obs loc, m.yArray.shape = [bottomCount y, T, 1] ∧
      multivariateObs m.single m.yArray mean = .ok (obs, loc) ∧ obs.shape = loc.shape ∧
      ∀ i j, i < bottomCount y → j < T →
        obs.get? [j, i] = m.yArray.get? [i, j, 0] ∧ loc.get? [j, i] = mean.get? [i, j, 0] := by
  obtain ⟨hyw, T, hT⟩ := C68_array hw hc hm
  have hflag := C68_single_flag hw hm
  rw [hT] at hs
  by_cases h1 : bottomCount y = 1
  · rw [h1] at hT hs
    obtain ⟨obs, loc, h2, h3, h4⟩ := C68_single hT hyw (.inl hs) hmw
    refine ⟨T, obs, loc, by rw [h1]; exact hT, by rw [hflag.2 h1]; exact h2, h3, fun i j hi hj => ?_⟩
    have : i = 0 := by omega
    subst this
    obtain ⟨h5, h6⟩ := h4 j hj
    rw [if_neg (by rw [hs]; simp)] at h6
    exact ⟨h5, h6⟩
  · obtain ⟨obs, loc, h2, h3, h4⟩ := C68_panel hT hyw hs hmw
    have : m.single = false := by
      cases hsg : m.single with
      | false => rfl
      | true => exact absurd (hflag.1 hsg) h1
    exact ⟨T, obs, loc, hT, by rw [this]; exact h2, h3, h4⟩

/-- **C68**, one series without labels, whose mean is a column. -/
theorem C68_fit_flat {cfg : HierConfig S Sc τ D K} {y : Frame String τ K} (hw : y.WF)
    (hn : y.nlevels = 1) {c : String} (hc : y.cols = [c]) {X : Option (Frame String τ K)}
    {m : HierFit S Sc τ D K} (hm : hierFitData cfg y X = .ok m) {mean : Tensor K} {T : Nat}
    (hT : m.yArray.shape = [1, T, 1]) (hs : mean.shape = [T, 1]) (hmw : mean.WF) :
    ∃ obs loc, multivariateObs m.single m.yArray mean = .ok (obs, loc) ∧ obs.shape = loc.shape ∧
      ∀ j < T, obs.get? [j, 0] = m.yArray.get? [0, j, 0] ∧ loc.get? [j, 0] = mean.get? [j, 0] := by
  have hflag := (C68_single_flag hw hm).2 (by unfold bottomCount; rw [if_pos hn])
  obtain ⟨obs, loc, h2, h3, h4⟩ := C68_single hT (C68_array hw hc hm).1 (.inr hs) hmw
  refine ⟨obs, loc, by rw [hflag]; exact h2, h3, fun j hj => ?_⟩
  have := h4 j hj
  rw [if_pos hs] at this
  exact this

end

/-! ## Non-vacuity -/

/-- Two series: the flag is off; one series with its total: the flag is on. -/
example : (hierFitData exHier exHierY (some exHierX)).toOption.map (fun m => (m.single, m.yArray.shape))
    = some (false, [2, 2, 1]) := by decide +kernel
def exOne68 : Frame String ℤ ℚ :=
  ⟨2, ["y"], [⟨["__total"], 0, fun _ => 1⟩, ⟨["__total"], 1, fun _ => 2⟩,
    ⟨["a"], 0, fun _ => 1⟩, ⟨["a"], 1, fun _ => 2⟩]⟩
example : (hierFitData exHier exOne68 none).toOption.map (fun m => (m.single, m.yArray.shape))
    = some (true, [1, 2, 1]) := by decide +kernel
example : exOne68.WF ∧ exOne68.cols = ["y"] ∧ bottomCount exOne68 = 1 ∧ bottomCount exHierY = 2 :=
  ⟨by unfold Frame.WF; decide, rfl, by decide, by decide⟩

end PV
