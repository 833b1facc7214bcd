import Verif.Props.InSample
import Verif.Props.OwnRows

/-!
# C70 without exogenous variables for hierarchies that are not crossed

Without exogenous variables the table for predicting has a row for every combination of labels, also for those that are
no series.
-/

namespace PV

section
variable {S Sc τ D K : Type} [LinearOrder τ] [Field K] [LinearOrder K] [IsStrictOrderedRing K]

/-- The data of the effect does not depend on the table (the piecewise trends: they read the dates from
the horizon). -/
def Hooks.TransformIgnoresTable {S Y Sc τ V D : Type} (h : Hooks S Y Sc τ V D) : Prop :=
  ∀ s x x' fh, h.transform s x fh = h.transform s x' fh

theorem transform_blind {S Y Sc τ V D K : Type} [DecidableEq τ] {e : EffectObj S Y Sc τ V D K}
    (h : e.cls.toHooks.TransformIgnoresTable ∨ e.cls.tags.skipIfNoMatch = true)
    (hst : e.st.1 = ⟨some [], some true⟩) (x x' : Frame String τ V) (fh : List τ) :
    e.transform (some x) fh = e.transform (some x') fh := by
  unfold EffectObj.transform baseTransform shouldSkip
  rw [hst]
  simp only [bind, Except.bind, pure, Except.pure]
  by_cases hs : e.cls.tags.skipIfNoMatch = true
  · simp [hs]
  · rcases h with h | h
    · simp only [hs, List.isEmpty_nil, Bool.and_false, Frame.select, List.not_mem_nil, IsEmpty.forall_iff, implies_true,
        if_true]
      rw [h]
    · exact absurd h hs

theorem transformEffects_congr {S Y Sc τ V D K : Type} [DecidableEq τ] {x x' : Frame String τ V} {fh : List τ} :
    ∀ {fitted : List (FittedEffect S Y Sc τ V D K)},
    (∀ fe ∈ fitted, fe.cols = [] ∧ ∀ u v : Frame String τ V, fe.effect.transform (some u) fh = fe.effect.transform (some v) fh) →
    transformEffects fitted x fh = transformEffects fitted x' fh := by
  intro fitted h
  unfold transformEffects
  generalize ([] : PyDict (Transformed D)) = acc
  induction fitted generalizing acc with
  | nil => rfl
  | cons fe l ih =>
    rw [List.foldlM_cons, List.foldlM_cons]
    have : transformStep x fh acc fe = transformStep x' fh acc fe := by
      obtain ⟨hc, hb⟩ := h fe (List.mem_cons_self ..)
      unfold transformStep
      simp only [hc, Frame.select, List.not_mem_nil, IsEmpty.forall_iff, implies_true, if_true, bind, Except.bind]
      rw [hb]
    rw [this]
    congr 1
    funext acc'
    exact ih (fun fe hfe => h fe (List.mem_cons_of_mem _ hfe)) acc'

/-- **C70**, hierarchical forecaster without exogenous variables, for hierarchies of any form (not every
combination of labels need be a series, and series may have different dates): if the trend reads nothing from the
table and effects need columns, predicting the training times hands the model the data it was trained on. -/
theorem C70_ragged_partial {cfg : HierConfig S Sc τ D K} {y : Frame String τ K} {m : HierFit S Sc τ D K}
    {levels : List (List String)} (hn : 2 ≤ y.nlevels) (hnd : y.index.Nodup) (hr : y.rows ≠ [])
    (hlab : ∀ s ∈ productAll levels, s.length + 1 = y.nlevels ∧ "__total" ∉ s)
    (hcov : ∀ r ∈ y.rows, r.sid ∈ productAll levels)
    (hfit : ∀ x, cfg.fitFeatures x = .ok x)
    (htrend : cfg.trend.cls.toHooks.TransformIgnoresTable)
    (heff : ∀ e ∈ cfg.effects, e.effect.cls.toHooks.TransformIgnoresTable ∨ e.effect.cls.tags.skipIfNoMatch = true)
    (h : hierFitData cfg y none = .ok m) :
    hierPredictData cfg m levels y none (unique y.times) = .ok (m.trendData, m.data) := by
  -- the table used when predicting
  set Z : Frame String τ K :=
    Frame.ofMultiIndex y.nlevels (product (productAll levels) (unique y.times)) with hZ
  have hZrows : ∀ r ∈ Z.rows, r.sid ∈ productAll levels := by
    intro r hr
    obtain ⟨k, hk, rfl⟩ := List.mem_map.1 hr
    exact (mem_product.1 hk).1
  have hZne : Z.rows ≠ [] := by
    obtain ⟨r0, hr0⟩ := List.exists_mem_of_ne_nil _ hr
    have : (r0.sid, r0.time) ∈ product (productAll levels) (unique y.times) :=
      mem_product.2 ⟨hcov r0 hr0, mem_unique.2 (List.mem_map.2 ⟨r0, hr0, rfl⟩)⟩
    exact List.ne_nil_of_mem (List.mem_map.2 ⟨_, this, rfl⟩)
  obtain ⟨x', hx', hl', hc', -⟩ := C52_undoes_aggregation cfg.keep (f := Z)
    (fun r hr => (hlab _ (hZrows r hr)).1) hn (fun r hr => (hlab _ (hZrows r hr)).2) hZne
  have hemp : emptyExog cfg.keep levels y (unique y.times) = .ok (aggregate cfg.keep Z) := by
    unfold emptyExog reindexTimeSeries Frame.reindex
    rw [if_neg (by omega), if_pos hnd]
    simp only [Except.map]
    congr 2
    simp [hZ, Frame.index, Function.comp_def]
  -- what the fit leaves
  unfold hierFitData at h
  simp only [bind, Except.bind] at h
  split at h
  · cases h
  rename_i yB hyB
  split at h
  · cases h
  split at h
  · cases h
  rename_i ex hex
  split at h
  · cases h
  rename_i tr htr
  split at h
  · cases h
  rename_i td htd
  split at h
  · cases h
  rename_i fw hfw
  split at h
  · cases h
  rename_i data hdata
  split at h
  · cases h
  cases h
  obtain ⟨hex1, hex2⟩ : ex.1 = none ∧ ex.2.cols = [] := by
    unfold hierExog exogOr at hex
    simp only [bind, Except.bind, hfit] at hex
    split at hex
    · cases hex
    rename_i x hx
    have hxc : x.cols = [] := by
      unfold locBottom at hx
      split at hx
      · cases hx; rfl
      · simp only [bind, Except.bind] at hx
        split at hx
        · cases hx
        unfold getMultiindexLoc at hx
        split at hx
        · cases hx
        · cases hx; rfl
    unfold fitExpand at hex
    rw [if_pos hxc] at hex
    cases hex
    exact ⟨rfl, hxc⟩
  have htd' : tr.transform (some x') (unique y.times) = .ok td := by
    obtain ⟨k1, -, k2⟩ := effectFit_ok htr
    rw [← htd]
    refine transform_blind (.inl (by rw [k1]; exact htrend)) ?_ _ _ _
    rw [k2, hex2]
    simp
  have hdata' : transformEffects fw.1 x' (unique y.times) = .ok data := by
    rw [← hdata]
    obtain ⟨fes, hf, -, hcase⟩ := fitEffects_ok.1 hfw
    have hone : ∀ fe ∈ fes, fe.cols = [] ∧ ∀ u v : Frame String τ K,
        fe.effect.transform (some u) (unique y.times) = fe.effect.transform (some v) (unique y.times) := by
      intro fe hfe
      obtain ⟨e, he, -, hm, hf⟩ := exists_of_forall₂ hf hfe
      obtain ⟨k1, -, k2⟩ := effectFit_ok hf
      have hcs : fe.cols = [] := by
        have := (matchColumns_sublist hm)
        rw [hex2] at this
        exact List.sublist_nil.1 this
      refine ⟨hcs, fun u v => transform_blind (by rw [k1]; exact heff e he) ?_ u v _⟩
      rw [k2]
      simp [hcs]
    refine transformEffects_congr fun fe hfe => ?_
    rcases hcase with ⟨-, hc⟩ | ⟨eff, hne, -⟩
    · rw [hc] at hfe
      exact hone fe hfe
    · refine absurd ?_ hne
      rw [hex2]
      rfl
  unfold hierPredictData predictExog predictExpand
  simp only [hemp, hx', hex1, bind, Except.bind, htd', hdata', pure, Except.pure]

omit [IsStrictOrderedRing K] in
/-- The piecewise trends read nothing from the table. -/
theorem C70_piecewise_blind [FloorSemiring K] (days : τ → K) (suggest : List K → Tensor K → PyM (List K × List K))
    (predict : Bool → Nat → EffectCall (Tensor K) K) (p : PiecewiseParams K τ) :
    (piecewiseClass (V := K) days suggest predict p).toHooks.TransformIgnoresTable := by
  intro s x x' fh
  rfl

end

/-! ## Cases -/

/-- Two regions with one shop each: the combinations north-b and south-a do not exist. -/
def exY70r : Frame String ℤ ℚ :=
  { nlevels := 3, cols := ["y"],
    rows := [⟨["north", "a"], 1, fun _ => 10⟩, ⟨["north", "a"], 2, fun _ => 11⟩,
             ⟨["south", "b"], 1, fun _ => 20⟩, ⟨["south", "b"], 2, fun _ => 21⟩] }

/-- A piecewise linear trend. -/
def exCfg70r : HierConfig (Option (PiecewiseState ℚ ℤ)) (Scale ℚ) ℤ (Tensor ℚ) ℚ where
  compile := fun p => (reCompile p).getD (.error .reError)
  order := id
  keep := fun _ => true
  trend := (piecewiseClass (fun t : ℤ => (t : ℚ)) suggestLinear piecewisePredict
    ⟨.scalar 1, .scalar (4 / 5), .scalar (1 / 10), false, none⟩).new
  effects := [⟨"e", (linearClass "additive").new, some ".*"⟩]
  default := (linearClass "additive").new
  fitFeatures := .ok
  features := .ok
  shared := []
  scale := .float 1

example : (hierFitData exCfg70r exY70r none).toOption.isSome = true := by decide +kernel

example {m} (h : hierFitData exCfg70r exY70r none = .ok m) :
    hierPredictData exCfg70r m [["north", "south"], ["a", "b"]] exY70r none [1, 2] = .ok (m.trendData, m.data) :=
  C70_ragged_partial (y := exY70r) (by decide) (by decide) (by decide) (by decide) (by decide) (fun _ => rfl)
    (C70_piecewise_blind _ _ _ _) (fun e he => by
      cases List.mem_singleton.1 he
      exact .inr rfl) h

/-- **C70** is false for the flat trend on such a hierarchy: it was trained on four rows and is asked for eight. -/
theorem C70_flat_ragged_refuted :
    ((hierFitData exHier exY70r none).toOption.map fun m => m.trendData) = some (.data ⟨[4, 1], [1, 1, 1, 1]⟩) ∧
    ((hierFitData exHier exY70r none).toOption.bind fun m =>
      (hierPredictData exHier m [["north", "south"], ["a", "b"]] exY70r none [1, 2]).toOption.map Prod.fst)
      = some (.data ⟨[8, 1], [1, 1, 1, 1, 1, 1, 1, 1]⟩) := by
  decide +kernel

end PV
