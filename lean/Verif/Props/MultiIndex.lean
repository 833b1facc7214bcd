import Verif.Props.Coherence
import Verif.Lemmas.Panel
import Verif.Model.MultiIndex

/-!
# C52, C54: bottom series and reindexing in time
-/

namespace PV
section
variable {ι τ V : Type}

theorem idxVal_isBottom {s : List String} {n : Nat} (h : s.length = n) (hn : n ≠ 0) :
    (idxVal n s).isBottom = true ↔ s.getLast? ≠ some "__total" := by
  unfold idxVal
  split
  · rename_i h1
    subst h1
    obtain ⟨a, rfl⟩ := List.length_eq_one_iff.1 h
    simp [IdxVal.isBottom, totalLabel]
  · subst h
    simp [IdxVal.isBottom, totalLabel]

theorem idxVal_inj {s s' : List String} {n : Nat} (h : s.length = n) (h' : s'.length = n) :
    idxVal n s = idxVal n s' ↔ s = s' := by
  unfold idxVal
  split
  · rename_i h1
    subst h1
    obtain ⟨a, rfl⟩ := List.length_eq_one_iff.1 h
    obtain ⟨b, rfl⟩ := List.length_eq_one_iff.1 h'
    simp
  · rw [IdxVal.tuple.injEq, List.take_of_length_le h.le, List.take_of_length_le h'.le]

theorem idxVal_nlevels {s : List String} {n : Nat} (h : s.length = n) (hn : n ≠ 0) :
    (idxVal n s).nlevels = n := by
  unfold idxVal
  split
  · rename_i h1; rw [h1]; rfl
  · simp only [IdxVal.nlevels]
    rw [List.length_take, h]
    simp

/-- **C52.** From a multi-index frame with at least one bottom series, exactly the rows of aggregate
series are dropped; the others stay in their order, unchanged. -/
theorem C52_drops_aggregates {f : Frame ι τ V} (hw : f.WF) (hn : 2 ≤ f.nlevels)
    (hb : ∃ r ∈ f.rows, r.sid.getLast? ≠ some "__total") :
    locBottom f
      = .ok { f with rows := f.rows.filter fun r => r.sid.getLast? ≠ some "__total" } := by
  unfold locBottom getBottomSeriesIdx
  rw [if_neg (by omega), if_neg (by omega)]
  simp only [bind, Except.bind]
  have hn0 : f.nlevels - 1 ≠ 0 := by omega
  have hlen : ∀ r ∈ f.rows, r.sid.length = f.nlevels - 1 := fun r hr => by
    have := hw r hr
    omega
  have hmem : ∀ v, v ∈ (f.series.map (idxVal (f.nlevels - 1))).filter IdxVal.isBottom ↔
      ∃ r ∈ f.rows, r.sid.getLast? ≠ some "__total" ∧ v = idxVal (f.nlevels - 1) r.sid := by
    intro v
    rw [List.mem_filter, List.mem_map]
    constructor
    · rintro ⟨⟨s, hs, rfl⟩, h⟩
      obtain ⟨r, hr, rfl⟩ := mem_series.1 hs
      exact ⟨r, hr, (idxVal_isBottom (hlen r hr) hn0).1 h, rfl⟩
    · rintro ⟨r, hr, h, rfl⟩
      exact ⟨⟨r.sid, mem_series.2 ⟨r, hr, rfl⟩, rfl⟩, (idxVal_isBottom (hlen r hr) hn0).2 h⟩
  cases hidx : (f.series.map (idxVal (f.nlevels - 1))).filter IdxVal.isBottom with
  | nil =>
    obtain ⟨r, hr, h⟩ := hb
    have := (hmem _).2 ⟨r, hr, h, rfl⟩
    rw [hidx] at this
    cases this
  | cons v vs =>
    obtain ⟨r0, hr0, -, hv⟩ := (hmem v).1 (by rw [hidx]; simp)
    unfold getMultiindexLoc
    simp only
    rw [hv, idxVal_nlevels (hlen r0 hr0) hn0, ← hv, ← hidx]
    congr 2
    apply List.filter_congr
    intro r hr
    apply decide_eq_decide.2
    rw [hmem]
    constructor
    · rintro ⟨r', hr', h, he⟩
      rwa [(idxVal_inj (hlen r hr) (hlen r' hr')).1 he]
    · intro h
      exact ⟨r, hr, h, rfl⟩

/-- **C52.** Without any bottom series the call is an `IndexError`. -/
theorem C52_no_bottom {f : Frame ι τ V} (hw : f.WF) (hn : 2 ≤ f.nlevels)
    (hb : ∀ r ∈ f.rows, r.sid.getLast? = some "__total") : locBottom f = .error .indexError := by
  unfold locBottom getBottomSeriesIdx
  rw [if_neg (by omega), if_neg (by omega)]
  simp only [bind, Except.bind]
  have : (f.series.map (idxVal (f.nlevels - 1))).filter IdxVal.isBottom = [] := by
    rw [List.filter_eq_nil_iff]
    intro v hv
    obtain ⟨s, hs, rfl⟩ := List.mem_map.1 hv
    obtain ⟨r, hr, rfl⟩ := mem_series.1 hs
    have hlen : r.sid.length = f.nlevels - 1 := by
      have := hw r hr
      omega
    rw [idxVal_isBottom hlen (by omega)]
    simp [hb r hr]
  rw [this]
  rfl

/-- **C52.** Flat data is unchanged. -/
theorem C52_flat {f : Frame ι τ V} (hn : f.nlevels = 1) : locBottom f = .ok f := by
  unfold locBottom
  rw [if_pos hn]

end

section
variable {ι τ K : Type} [Field K] [LinearOrder K] [LinearOrder τ]

theorem aggregate_wf (keep : List String → Bool) {f : Frame ι τ K} (hw : f.WF) :
    (aggregate keep f).WF ∧ (aggregate keep f).nlevels = f.nlevels ∧
      (aggregate keep f).cols = f.cols := by
  unfold aggregate
  split
  · exact ⟨hw, rfl, rfl⟩
  · refine ⟨fun r hr => ?_, rfl, rfl⟩
    have hr := (sortIndex_perm _).mem_iff.1 hr
    simp only [List.mem_append] at hr
    rcases hr with hr | hr
    · exact hw r (List.mem_of_mem_filter hr)
    · have hr := List.mem_of_mem_filter hr
      obtain ⟨i, hi, hr⟩ := List.mem_flatMap.1 hr
      rw [List.mem_range] at hi
      unfold aggLevel at hr
      obtain ⟨g, hg, rfl⟩ := List.mem_map.1 hr
      rw [mem_unique] at hg
      obtain ⟨r0, hr0, rfl⟩ := List.mem_map.1 hg
      have := hw r0 (List.mem_of_mem_filter hr0)
      simp only [List.length_append, List.length_take, List.length_replicate]
      show _ = f.nlevels
      omega

/-- **C52.** Aggregating a hierarchy and taking the bottom series gives the original rows, each once
and unchanged, sorted by label; if they were sorted with distinct labels before, the frame itself. -/
theorem C52_undoes_aggregation [IsStrictOrderedRing K] (keep : List String → Bool)
    {f : Frame ι τ K} (hw : f.WF) (hn : 2 ≤ f.nlevels) (hres : NoReserved f) (hr : f.rows ≠ []) :
    ∃ g, locBottom (aggregate keep f) = .ok g ∧ g.nlevels = f.nlevels ∧ g.cols = f.cols ∧
      g.rows.Perm f.rows ∧ g.index.Pairwise (fun a b => toLex a ≤ toLex b) ∧
      (f.index.Pairwise (fun a b => toLex a < toLex b) → g = f) := by
  obtain ⟨hp, -, hs⟩ := C10_aggregate_coherent keep hw (by omega) hres
  obtain ⟨hw', hl, hc⟩ := aggregate_wf keep hw
  have hex : ∃ r ∈ (aggregate keep f).rows, r.sid.getLast? ≠ some "__total" := by
    obtain ⟨r, l, hrl⟩ := List.exists_cons_of_ne_nil hr
    have hmem : r ∈ (aggregate keep f).rows.filter fun r => r.sid.getLast? ≠ some "__total" :=
      hp.mem_iff.2 (by rw [hrl]; simp)
    rw [List.mem_filter] at hmem
    exact ⟨r, hmem.1, by simpa using hmem.2⟩
  have hsub : ((aggregate keep f).rows.filter fun r => r.sid.getLast? ≠ some "__total").Pairwise
      fun a b => toLex (a.sid, a.time) ≤ toLex (b.sid, b.time) := by
    rw [Frame.index, List.pairwise_map] at hs
    exact hs.sublist List.filter_sublist
  refine ⟨_, C52_drops_aggregates hw' (by omega) hex, hl, hc, hp, ?_, fun hf => ?_⟩
  · rw [Frame.index, List.pairwise_map]
    exact hsub
  · rw [Frame.index, List.pairwise_map] at hf
    have : ((aggregate keep f).rows.filter fun r => r.sid.getLast? ≠ some "__total") = f.rows := by
      refine List.Perm.eq_of_pairwise (le := fun a b : Row ι τ K =>
        toLex (a.sid, a.time) ≤ toLex (b.sid, b.time)) ?_ hsub (hf.imp le_of_lt) hp
      intro a b ha hb hab hba
      have hnd : (f.rows.map fun r => toLex (r.sid, r.time)).Nodup := by
        rw [List.Nodup, List.pairwise_map]
        exact hf.imp fun h => h.ne
      exact List.inj_on_of_nodup_map hnd (hp.mem_iff.1 ha) hb (le_antisymm hab hba)
    obtain ⟨nl, co, ro⟩ := f
    simp only at hl hc this ⊢
    rw [hl, hc, this]

end

/-! ## C54 -/

section
variable {ι τ V : Type} [DecidableEq τ]

theorem nodup_productAll {α : Type} : ∀ {ls : List (List α)}, (∀ l ∈ ls, l.Nodup) →
    (productAll ls).Nodup
  | [], _ => by simp [productAll]
  | l :: ls, h => by
    have ih := nodup_productAll (ls := ls) fun m hm => h m (by simp [hm])
    have hl := h l (by simp)
    unfold productAll
    rw [List.nodup_flatMap]
    refine ⟨fun a _ => ih.map fun s s' h => (List.cons.inj h).2, hl.imp fun {a b} hab => ?_⟩
    intro s hs hs'
    obtain ⟨u, -, rfl⟩ := List.mem_map.1 hs
    obtain ⟨v, -, hv⟩ := List.mem_map.1 hs'
    exact hab (List.cons.inj hv).1.symm

theorem filter_product {α β : Type} [DecidableEq α] {a : List α} (ha : a.Nodup) (b : List β) (x : α) :
    ((product a b).filter fun p => p.1 = x).map Prod.snd = if x ∈ a then b else [] := by
  unfold product
  induction a with
  | nil => simp
  | cons y a ih =>
    rw [List.flatMap_cons, List.filter_append, List.map_append, ih ha.of_cons]
    by_cases h : y = x
    · subst h
      have : y ∉ a := (List.nodup_cons.1 ha).1
      simp [List.filter_map, Function.comp_def, this]
    · have h' : x ≠ y := fun e => h e.symm
      simp [List.filter_map, Function.comp_def, h, h']

theorem reindex_ok {f : Frame ι τ V} (hf : f.index.Nodup) (idx : List (List String × τ)) :
    ∃ g, f.reindex idx = .ok g ∧ g.nlevels = f.nlevels ∧ g.cols = f.cols ∧ g.index = idx ∧
      (∀ r ∈ f.rows, ∀ r' ∈ g.rows, r'.sid = r.sid → r'.time = r.time →
        ∀ c, r'.val c = some (r.val c)) ∧
      ∀ r' ∈ g.rows, (r'.sid, r'.time) ∉ f.index → ∀ c, r'.val c = none := by
  refine ⟨_, by unfold Frame.reindex; rw [if_pos hf], rfl, rfl, ?_, ?_, ?_⟩
  · simp [Frame.index, Function.comp_def]
  · intro r hr r' hr' hs ht c
    obtain ⟨k, hk, rfl⟩ := List.mem_map.1 hr'
    simp only at hs ht ⊢
    cases hfind : f.rows.find? fun r => r.sid = k.1 ∧ r.time = k.2 with
    | none =>
      have := List.find?_eq_none.1 hfind r hr
      simp [hs, ht] at this
    | some r0 =>
      have h0 := List.find?_some hfind
      have hm := List.mem_of_find?_eq_some hfind
      simp only [decide_eq_true_eq] at h0
      have : r0 = r := List.inj_on_of_nodup_map hf hm hr (by rw [h0.1, h0.2, hs, ht])
      rw [this]
      rfl
  · intro r' hr' hn c
    obtain ⟨k, hk, rfl⟩ := List.mem_map.1 hr'
    simp only at hn ⊢
    rw [List.find?_eq_none.2]
    · rfl
    · intro r hr h
      simp only [decide_eq_true_eq] at h
      exact hn (List.mem_map.2 ⟨r, hr, by rw [h.1, h.2]⟩)

theorem rowsOf_times (g : Frame ι τ V) (s : List String) :
    (g.rowsOf s).map Row.time = (g.index.filter fun p => p.1 = s).map Prod.snd := by
  unfold Frame.rowsOf Frame.index
  rw [List.filter_map, List.map_map]
  rfl

/-- What the reindexed panel is: for *every combination of labels* of the levels one series, with
exactly the new times in the new order; values are those of the panel where it has them and missing
elsewhere.  `levels`: the labels per level, without repetition. -/
theorem reindex_panel {f : Frame ι τ V} (hn : 2 ≤ f.nlevels) (hf : f.index.Nodup)
    {levels : List (List String)} (hlev : ∀ l ∈ levels, l.Nodup) (fh : List τ) :
    ∃ g, reindexTimeSeries levels f fh = .ok g ∧ g.nlevels = f.nlevels ∧ g.cols = f.cols ∧
      (∀ s, (g.rowsOf s).map Row.time = if s ∈ productAll levels then fh else []) ∧
      (∀ r ∈ f.rows, ∀ r' ∈ g.rows, r'.sid = r.sid → r'.time = r.time →
        ∀ c, r'.val c = some (r.val c)) ∧
      ∀ r' ∈ g.rows, (r'.sid, r'.time) ∉ f.index → ∀ c, r'.val c = none := by
  obtain ⟨g, h1, h2, h3, h4, h5, h6⟩ := reindex_ok hf (product (productAll levels) fh)
  refine ⟨g, by unfold reindexTimeSeries; rw [if_neg (by omega)]; exact h1, h2, h3, fun s => ?_, h5, h6⟩
  rw [rowsOf_times, h4, filter_product (nodup_productAll hlev)]
  by_cases h : s ∈ productAll levels <;> simp [h]

/-- **C54** where it holds: for a panel with distinct labels whose series are *all combinations* of
the labels of the levels, the result has exactly the same series, each with exactly the new times;
its values are those of the panel, and missing at times the panel does not have.

Missing: hierarchies that are not crossed, and panels whose index still lists labels that no row
uses (`C54_ragged_refuted`, `C54_unused_refuted`); `C54_series_iff_partial` shows that it fails for all of
these. -/
theorem C54_reindex_partial {f : Frame ι τ V} (hn : 2 ≤ f.nlevels) (hf : f.index.Nodup)
    {levels : List (List String)} (hlev : ∀ l ∈ levels, l.Nodup)
    (hcross : ∀ s, s ∈ productAll levels ↔ ∃ r ∈ f.rows, r.sid = s) {fh : List τ} (hfh : fh ≠ []) :
    ∃ g, reindexTimeSeries levels f fh = .ok g ∧ g.cols = f.cols ∧
      (∀ s, (∃ r ∈ g.rows, r.sid = s) ↔ ∃ r ∈ f.rows, r.sid = s) ∧
      (∀ r ∈ f.rows, (g.rowsOf r.sid).map Row.time = fh) ∧
      (∀ r ∈ f.rows, ∀ r' ∈ g.rows, r'.sid = r.sid → r'.time = r.time →
        ∀ c, r'.val c = some (r.val c)) ∧
      ∀ r' ∈ g.rows, (r'.sid, r'.time) ∉ f.index → ∀ c, r'.val c = none := by
  obtain ⟨g, h1, -, h3, h4, h5, h6⟩ := reindex_panel hn hf hlev fh
  refine ⟨g, h1, h3, fun s => ?_, fun r hr => ?_, h5, h6⟩
  · rw [← hcross]
    have := h4 s
    constructor
    · rintro ⟨r, hr, rfl⟩
      by_contra hs
      rw [if_neg hs, List.map_eq_nil_iff] at this
      have hm : r ∈ g.rowsOf r.sid := by simp [Frame.rowsOf, hr]
      rw [this] at hm
      cases hm
    · intro hs
      rw [if_pos hs] at this
      cases hg : g.rowsOf s with
      | nil =>
        rw [hg] at this
        exact absurd this.symm hfh
      | cons r l =>
        have hm : r ∈ g.rowsOf s := by rw [hg]; simp
        simp only [Frame.rowsOf, List.mem_filter, decide_eq_true_eq] at hm
        exact ⟨r, hm.1, hm.2⟩
  · rw [h4, if_pos ((hcross _).2 ⟨r, hr, rfl⟩)]

/-- The result has exactly the series of the panel *only if* every combination of the labels of the
levels is a series of the panel. -/
theorem C54_series_iff_partial {f : Frame ι τ V} (hn : 2 ≤ f.nlevels) (hf : f.index.Nodup)
    {levels : List (List String)} (hlev : ∀ l ∈ levels, l.Nodup)
    (hcov : ∀ r ∈ f.rows, r.sid ∈ productAll levels) {fh : List τ} (hfh : fh ≠ []) :
    ∃ g, reindexTimeSeries levels f fh = .ok g ∧
      ((∀ s, (∃ r ∈ g.rows, r.sid = s) ↔ ∃ r ∈ f.rows, r.sid = s) ↔
        ∀ s ∈ productAll levels, ∃ r ∈ f.rows, r.sid = s) := by
  obtain ⟨g, h1, -, -, h4, -, -⟩ := reindex_panel hn hf hlev fh
  refine ⟨g, h1, fun h s hs => ?_, fun h => ?_⟩
  · rw [← h]
    have := h4 s
    rw [if_pos hs] at this
    cases hg : g.rowsOf s with
    | nil =>
      rw [hg] at this
      exact absurd this.symm hfh
    | cons r l =>
      have hm : r ∈ g.rowsOf s := by rw [hg]; simp
      simp only [Frame.rowsOf, List.mem_filter, decide_eq_true_eq] at hm
      exact ⟨r, hm.1, hm.2⟩
  · obtain ⟨g', h1', -, h3', -⟩ := C54_reindex_partial hn hf hlev
      (fun s => ⟨h s, fun ⟨r, hr, hs⟩ => hs ▸ hcov r hr⟩) hfh
    rw [h1, Except.ok.injEq] at h1'
    rw [h1']
    exact h3'

/-- **C54**, flat data: exactly the new times. -/
theorem C54_flat {f : Frame ι τ V} (hn : f.nlevels = 1) (hf : f.index.Nodup)
    (levels : List (List String)) (fh : List τ) :
    ∃ g, reindexTimeSeries levels f fh = .ok g ∧ g.times = fh := by
  obtain ⟨g, h1, -, -, h4, -⟩ := reindex_ok hf (fh.map fun t => ([], t))
  refine ⟨g, by unfold reindexTimeSeries; rw [if_pos hn]; exact h1, ?_⟩
  have : g.times = g.index.map Prod.snd := by simp [Frame.times, Frame.index, Function.comp_def]
  rw [this, h4]
  simp [Function.comp_def]

end

/-! ## Counterexamples and non-vacuity -/

/-- A hierarchy that is not crossed: a store in each of two regions. -/
def exRagged : Frame String Nat ℤ :=
  ⟨3, ["y"], [⟨["north", "a"], 0, fun _ => 1⟩, ⟨["south", "b"], 0, fun _ => 2⟩]⟩

/-- **C54 is false for hierarchies that are not crossed**: two series become four. -/
theorem C54_ragged_refuted :
    ((reindexTimeSeries [["north", "south"], ["a", "b"]] exRagged [1]).map fun g => g.series)
      = .ok [["north", "a"], ["north", "b"], ["south", "a"], ["south", "b"]] ∧
    exRagged.series = [["north", "a"], ["south", "b"]] := by
  constructor <;> decide +kernel

/-- A panel from which the series `b` was removed; pandas keeps its label in `index.levels`. -/
def exUnused : Frame String Nat ℤ := ⟨2, ["y"], [⟨["a"], 0, fun _ => 1⟩]⟩

/-- **C54 is false for panels obtained by removing rows**: the removed series comes back. -/
theorem C54_unused_refuted :
    ((reindexTimeSeries [["a", "b"]] exUnused [1]).map fun g => g.series) = .ok [["a"], ["b"]] ∧
    exUnused.series = [["a"]] := by
  constructor <;> decide +kernel

/-- A crossed panel satisfies the hypotheses of `C54_reindex_partial`. -/
example : ∃ g, reindexTimeSeries [["a", "b"]]
    (⟨2, ["y"], [⟨["a"], 0, fun _ => 1⟩, ⟨["b"], 0, fun _ => 2⟩]⟩ : Frame String Nat ℤ) [0, 1] = .ok g ∧
    (g.rowsOf ["b"]).map (fun r => (r.time, r.val "y")) = [(0, some 2), (1, none)] := by
  obtain ⟨g, h1, -⟩ := C54_reindex_partial (fh := [0, 1]) (levels := [["a", "b"]])
    (f := (⟨2, ["y"], [⟨["a"], 0, fun _ => 1⟩, ⟨["b"], 0, fun _ => 2⟩]⟩ : Frame String Nat ℤ))
    (by decide) (by decide +kernel) (by decide +kernel) (by intro s; simp [productAll, eq_comm]) (by simp)
  refine ⟨g, h1, ?_⟩
  have : (reindexTimeSeries [["a", "b"]]
    (⟨2, ["y"], [⟨["a"], 0, fun _ => 1⟩, ⟨["b"], 0, fun _ => 2⟩]⟩ : Frame String Nat ℤ) [0, 1]).map
      (fun g => (g.rowsOf ["b"]).map fun r => (r.time, r.val "y")) = .ok [(0, some 2), (1, none)] := by
    decide +kernel
  rw [h1] at this
  exact Except.ok.inj this

/-- A hierarchy with two levels of series. -/
def exTwoLevels : Frame String Nat ℚ :=
  ⟨3, ["y"], [⟨["n", "a"], 0, fun _ => 1⟩, ⟨["n", "b"], 0, fun _ => 2⟩, ⟨["s", "c"], 0, fun _ => 4⟩]⟩

example : ∃ g, locBottom (aggregate (fun _ => true) exTwoLevels) = .ok g ∧
    g.rows.Perm exTwoLevels.rows ∧ (aggregate (fun _ => true) exTwoLevels).rows.length = 6 := by
  obtain ⟨g, h1, -, -, h4, -⟩ := C52_undoes_aggregation (fun _ => true) (f := exTwoLevels)
    (by unfold Frame.WF; decide +kernel) (by decide) (by unfold NoReserved; decide +kernel) (by simp [exTwoLevels])
  exact ⟨g, h1, h4, by decide +kernel⟩

end PV
