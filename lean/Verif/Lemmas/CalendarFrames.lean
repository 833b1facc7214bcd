import Verif.Lemmas.Calendar
import Verif.Model.World

/-!
# Frames under a change of the dates: hierarchies, scaling, forecasts (for C78)
-/

namespace PV
section
variable {ι K τ τ' : Type} [Field K] [LinearOrder K] [LinearOrder τ] [LinearOrder τ'] {g : τ → τ'}

theorem index_mapTimes (g : τ → τ') {V : Type} (f : Frame ι τ V) :
    (f.mapTimes g).index = f.index.map (Prod.map id g) := by
  simp [Frame.index, Frame.mapTimes, Function.comp_def, Prod.map]

theorem sortIndex_mapTimes {V : Type} (hg : StrictMono g) (f : Frame ι τ V) :
    sortIndex (f.mapTimes g) = (sortIndex f).mapTimes g := by
  unfold sortIndex
  simp only [Frame.mapTimes]
  congr 1
  symm
  apply List.map_insertionSort
  intro a _ b _
  rw [Prod.Lex.toLex_le_toLex, Prod.Lex.toLex_le_toLex]
  simp only [hg.le_iff_le]

theorem aggLevel_mapTimes (hg : StrictMono g) (L i : Nat) (rows : List (Row ι τ K)) :
    aggLevel L i (rows.map fun r => (⟨r.sid, g r.time, r.val⟩ : Row ι τ' K))
      = (aggLevel L i rows).map fun r => ⟨r.sid, g r.time, r.val⟩ := by
  have hinj : Function.Injective (Prod.map (id : List String → List String) g) :=
    Function.injective_id.prodMap hg.injective
  unfold aggLevel
  have h1 : (rows.map fun r => (⟨r.sid, g r.time, r.val⟩ : Row ι τ' K)).map
      (fun r => (r.sid.take i, r.time))
      = (rows.map fun r => (r.sid.take i, r.time)).map (Prod.map id g) := by
    simp [Function.comp_def]
  rw [h1, map_unique fun _ _ _ _ h => hinj h, List.map_map, List.map_map]
  apply List.map_congr_left
  rintro ⟨s, t⟩ _
  simp only [Function.comp_apply, Prod.map_apply, id]
  congr 1
  funext c
  congr 1
  rw [List.filter_map, List.map_map]
  have : ((fun r : Row ι τ' K => decide ((r.sid.take i, r.time) = (s, g t))) ∘
      fun r : Row ι τ K => (⟨r.sid, g r.time, r.val⟩ : Row ι τ' K))
      = fun r => decide ((r.sid.take i, r.time) = (s, t)) := by
    funext r
    simp [hg.injective.eq_iff]
  rw [this]
  rfl

theorem aggregate_mapTimes (hg : StrictMono g) (keep : List String → Bool) (f : Frame ι τ K) :
    aggregate keep (f.mapTimes g) = (aggregate keep f).mapTimes g := by
  unfold aggregate
  have hn : (f.mapTimes g).nlevels = f.nlevels := rfl
  rw [hn]
  split
  · rfl
  · rw [← sortIndex_mapTimes hg]
    congr 1
    simp only [Frame.mapTimes, List.filter_map, List.map_append]
    congr 1
    congr 1
    have h1 : (fun i => aggLevel (f.nlevels - 1) i (((f.rows.filter
        ((fun r : Row ι τ' K => decide (totalLabel ∉ r.sid)) ∘ fun r =>
          (⟨r.sid, g r.time, r.val⟩ : Row ι τ' K))).map fun r => ⟨r.sid, g r.time, r.val⟩)))
        = fun i => (aggLevel (f.nlevels - 1) i
          (f.rows.filter fun r => decide (totalLabel ∉ r.sid))).map
            fun r => (⟨r.sid, g r.time, r.val⟩ : Row ι τ' K) := by
      funext i
      rw [aggLevel_mapTimes hg]
      rfl
    rw [h1, ← List.map_flatMap, List.filter_map]
    rfl

theorem getMultiindexLoc_mapTimes {V : Type} (g : τ → τ') (f : Frame ι τ V) (idx : List IdxVal) :
    getMultiindexLoc (f.mapTimes g) idx = (getMultiindexLoc f idx).map (Frame.mapTimes g) := by
  cases idx with
  | nil => rfl
  | cons v l =>
    simp only [getMultiindexLoc, Except.map]
    congr 1
    simp only [Frame.mapTimes, List.filter_map]
    rfl

theorem locBottom_mapTimes {V : Type} (g : τ → τ') (f : Frame ι τ V) :
    locBottom (f.mapTimes g) = (locBottom f).map (Frame.mapTimes g) := by
  unfold locBottom
  have hn : (f.mapTimes g).nlevels = f.nlevels := rfl
  have hb : getBottomSeriesIdx (f.mapTimes g) = getBottomSeriesIdx f := by
    unfold getBottomSeriesIdx
    rw [series_mapTimes]
    rfl
  rw [hn, hb]
  split
  · rfl
  · cases getBottomSeriesIdx f with
    | error e => rfl
    | ok idx => exact getMultiindexLoc_mapTimes g f idx

theorem reindex_mapTimes {V : Type} (hg : StrictMono g) (f : Frame ι τ V)
    (idx : List (List String × τ)) :
    (f.mapTimes g).reindex (idx.map (Prod.map id g)) = (f.reindex idx).map (Frame.mapTimes g) := by
  have hinj : Function.Injective (Prod.map (id : List String → List String) g) :=
    Function.injective_id.prodMap hg.injective
  unfold Frame.reindex
  simp only [index_mapTimes, List.nodup_map_iff hinj]
  split
  · simp only [Except.map]
    congr 1
    simp only [Frame.mapTimes, List.map_map]
    congr 1
    apply List.map_congr_left
    rintro ⟨s, t⟩ _
    simp only [Function.comp_apply, Prod.map_apply, id]
    congr 1
    funext c
    rw [List.find?_map, Option.map_map]
    have : ((fun r : Row ι τ' V => decide (r.sid = s ∧ r.time = g t)) ∘
        fun r : Row ι τ V => (⟨r.sid, g r.time, r.val⟩ : Row ι τ' V))
        = fun r => decide (r.sid = s ∧ r.time = t) := by
      funext r
      simp [hg.injective.eq_iff]
    rw [this]
    rfl
  · rfl

theorem product_map_right {α : Type} (a : List α) (b : List τ) (g : τ → τ') :
    product a (b.map g) = (product a b).map (Prod.map id g) := by
  simp [product, List.map_flatMap, Function.comp_def]

theorem reindexTimeSeries_mapTimes {V : Type} (hg : StrictMono g) (levels : List (List String))
    (f : Frame ι τ V) (fh : List τ) :
    reindexTimeSeries levels (f.mapTimes g) (fh.map g)
      = (reindexTimeSeries levels f fh).map (Frame.mapTimes g) := by
  unfold reindexTimeSeries
  have hn : (f.mapTimes g).nlevels = f.nlevels := rfl
  rw [hn, product_map_right, reindex_mapTimes hg]
  have : (fh.map g).map (fun t => (([] : List String), t))
      = (fh.map fun t => ([], t)).map (Prod.map id g) := by simp [Function.comp_def]
  rw [this, reindex_mapTimes hg]
  split <;> rfl

theorem ofMultiIndex_mapTimes (g : τ → τ') (nl : Nat) (idx : List (List String × τ)) :
    (Frame.ofMultiIndex nl (idx.map (Prod.map id g)) : Frame String τ' K)
      = (Frame.ofMultiIndex nl idx).mapTimes g := by
  simp [Frame.ofMultiIndex, Frame.mapTimes, Function.comp_def]

theorem exogOr_mapTimes (g : τ → τ') (X : Option (Frame String τ K)) (e : Frame String τ K) :
    exogOr (X.map (Frame.mapTimes g)) (e.mapTimes g) = (exogOr X e).mapTimes g := by
  cases X with
  | none => rfl
  | some x =>
    simp only [Option.map_some, exogOr]
    have : (x.mapTimes g).cols = x.cols := rfl
    rw [this]
    split <;> rfl

/-! ## Expansion of columns -/

theorem setCol_mapTimes (g : τ → τ') (f : Frame String τ K) (name : String) :
    (f.mapTimes g).setCol name (fun _ => 0) = (f.setCol name fun _ => 0).mapTimes g := by
  unfold Frame.setCol Frame.mapTimes
  simp only [List.map_map]
  rfl

theorem setLoc_mapTimes (g : τ → τ') (f : Frame String τ K) (s : List String) (name : String)
    (vals : List K) : (f.mapTimes g).setLoc s name vals = (f.setLoc s name vals).mapTimes g := by
  unfold Frame.setLoc Frame.mapTimes
  simp only
  congr 1
  induction f.rows generalizing vals with
  | nil => rfl
  | cons r rows ih =>
    rw [List.map_cons]
    by_cases hr : r.sid = s
    · cases vals with
      | nil => simp [Frame.setLoc.go, hr, ih]
      | cons v vs => simp [Frame.setLoc.go, hr, ih]
    · simp [Frame.setLoc.go, hr, ih]

theorem expandTransform_mapTimes (g : τ → τ') (st : ExpandState) (x : Frame String τ K) :
    expandTransform st (x.mapTimes g) = (expandTransform st x).map (Frame.mapTimes g) := by
  unfold expandTransform
  have hn : (x.mapTimes g).nlevels = x.nlevels := rfl
  have hc : (x.mapTimes g).cols = x.cols := rfl
  have hr : (x.mapTimes g).rows ≠ [] ↔ x.rows ≠ [] := by simp [Frame.mapTimes]
  have h1 : (product st.matched x.series).foldl
      (fun f p => f.setCol (colName p.1 p.2) fun _ => 0) (x.mapTimes g)
      = ((product st.matched x.series).foldl
          (fun f p => f.setCol (colName p.1 p.2) fun _ => 0) x).mapTimes g :=
    List.foldl_hom (Frame.mapTimes g) fun f p => setCol_mapTimes g f _
  have hv : ∀ (s : List String) (c : String), ((x.mapTimes g).rowsOf s).map (fun r => r.val c)
      = (x.rowsOf s).map fun r => r.val c := by
    intro s c
    rw [rowsOf_mapTimes, List.map_map]
    rfl
  have h2 : ∀ x1 : Frame String τ K, (product x.series st.matched).foldl (fun f p =>
        f.setLoc p.1 (colName p.2 p.1) (((x.mapTimes g).rowsOf p.1).map fun r => r.val p.2))
        (x1.mapTimes g)
      = ((product x.series st.matched).foldl (fun f p =>
          f.setLoc p.1 (colName p.2 p.1) ((x.rowsOf p.1).map fun r => r.val p.2)) x1).mapTimes g := by
    intro x1
    simp only [hv]
    exact List.foldl_hom (Frame.mapTimes g) fun f p => setLoc_mapTimes g f _ _ _
  rw [hn, hc, series_mapTimes]
  simp only [h1, h2, hr]
  split
  · rfl
  · split
    · rfl
    · split
      · rfl
      · generalize (product x.series st.matched).foldl _ _ = x2
        have : (x2.mapTimes g).cols = x2.cols := rfl
        rw [this]
        split <;> rfl

theorem fitExpand_mapTimes (g : τ → τ') (compile : String → PyM (String → Bool))
    (order : List String → List String) (shared : List String) (x : Frame String τ K) :
    fitExpand compile order shared (x.mapTimes g)
      = (fitExpand compile order shared x).map (Prod.map id (Frame.mapTimes g)) := by
  unfold fitExpand
  have hc : (x.mapTimes g).cols = x.cols := rfl
  have he : ∀ ps, expandFit compile order ps (x.mapTimes g) = expandFit compile order ps x :=
    fun ps => rfl
  rw [hc, he]
  split
  · rfl
  · cases expandFit compile order (nonShared x.cols shared) x with
    | error e => rfl
    | ok st =>
      simp only [bind, Except.bind, expandTransform_mapTimes]
      cases expandTransform st x <;> rfl

theorem emptyExog_mapTimes (hg : StrictMono g) (keep : List String → Bool)
    (levels : List (List String)) (y : Frame String τ K) (fh : List τ) :
    emptyExog keep levels (y.mapTimes g) (fh.map g)
      = (emptyExog keep levels y fh).map (Frame.mapTimes g) := by
  unfold emptyExog
  rw [reindexTimeSeries_mapTimes hg]
  cases reindexTimeSeries levels y fh with
  | error e => rfl
  | ok f =>
    simp only [Except.map]
    rw [index_mapTimes, ofMultiIndex_mapTimes, aggregate_mapTimes hg]
    rfl

theorem predictExog_mapTimes (hg : StrictMono g) (keep : List String → Bool)
    (levels : List (List String)) (y : Frame String τ K) (X : Option (Frame String τ K))
    (fh : List τ) :
    predictExog keep levels (y.mapTimes g) (X.map (Frame.mapTimes g)) (fh.map g)
      = (predictExog keep levels y X fh).map (Frame.mapTimes g) := by
  have key : (do locBottom (← emptyExog keep levels (y.mapTimes g) (fh.map g)))
      = (do locBottom (← emptyExog keep levels y fh)).map (Frame.mapTimes g) := by
    rw [emptyExog_mapTimes hg]
    cases emptyExog keep levels y fh with
    | error e => rfl
    | ok f => exact locBottom_mapTimes g f
  cases X with
  | none => exact key
  | some x =>
    simp only [Option.map_some, predictExog]
    have hc : (x.mapTimes g).cols = x.cols := rfl
    rw [hc]
    split
    · exact key
    · exact locBottom_mapTimes g x

theorem predictExpand_mapTimes (hg : StrictMono g)
    {features : Frame String τ K → PyM (Frame String τ K)}
    {features' : Frame String τ' K → PyM (Frame String τ' K)}
    (hf : ∀ x, features' (x.mapTimes g) = (features x).map (Frame.mapTimes g))
    (expand : Option ExpandState) (x : Frame String τ K) (fh : List τ) :
    predictExpand features' expand (x.mapTimes g) (fh.map g)
      = (predictExpand features expand x fh).map (Frame.mapTimes g) := by
  cases expand with
  | none => rfl
  | some st =>
    simp only [predictExpand]
    have hm : (∀ t ∈ fh.map g, t ∈ (x.mapTimes g).times) ↔ ∀ t ∈ fh, t ∈ x.times := by
      rw [times_mapTimes]
      simp [hg.injective.eq_iff]
    by_cases hc : ∀ t ∈ fh, t ∈ x.times
    · rw [if_pos hc, if_pos (hm.2 hc), hf]
      cases features x with
      | error e => rfl
      | ok x => exact expandTransform_mapTimes g st x
    · rw [if_neg hc, if_neg fun h => hc (hm.1 h)]
      rfl

/-! ## Scaling -/

theorem targetVals_mapTimes (g : τ → τ') (y : Frame String τ K) (rows : List (Row String τ K)) :
    targetVals (y.mapTimes g) (rows.map fun r => ⟨r.sid, g r.time, r.val⟩) = targetVals y rows := by
  simp [targetVals, Frame.mapTimes, Function.comp_def]

theorem setYScales_mapTimes (g : τ → τ') (user : Option (Scale K)) (y : Frame String τ K) :
    setYScales user (y.mapTimes g) = setYScales user y := by
  have hg : groupMaxAbs (y.mapTimes g) = groupMaxAbs y := by
    unfold groupMaxAbs
    rw [series_mapTimes]
    simp only [rowsOf_mapTimes, targetVals_mapTimes]
  have : rawScale user (y.mapTimes g) = rawScale user y := by
    unfold rawScale
    have h1 : (y.mapTimes g).nlevels = y.nlevels := rfl
    have h2 : (y.mapTimes g).rows = y.rows.map fun r => ⟨r.sid, g r.time, r.val⟩ := rfl
    rw [hg, h1, h2, targetVals_mapTimes]
  unfold setYScales
  rw [this]

theorem rowScales_mapTimes {V : Type} (g : τ → τ') (s : Scale K) (y : Frame ι τ V) :
    rowScales s (y.mapTimes g) = rowScales s y := by
  cases s with
  | float x => simp [rowScales, Frame.mapTimes, Function.comp_def]
  | int n => rfl
  | table e =>
    simp only [rowScales, Frame.mapTimes, List.mapM_map]
    rfl

theorem applyScales_mapTimes {V W : Type} (g : τ → τ') (h : V → K → W) (y : Frame ι τ V)
    (ss : List K) : applyScales h (y.mapTimes g) ss = (applyScales h y ss).mapTimes g := by
  simp [applyScales, Frame.mapTimes, List.zipWith_map_left, List.map_zipWith]

theorem scaleY_mapTimes (g : τ → τ') (discrete : Bool) (s : Scale K) (y : Frame String τ K) :
    scaleY discrete s (y.mapTimes g) = (scaleY discrete s y).map (Frame.mapTimes g) := by
  unfold scaleY
  rw [rowScales_mapTimes]
  split
  · rfl
  · cases rowScales s y with
    | error e => rfl
    | ok ss =>
      simp only [bind, Except.bind, pure, Except.pure, Except.map, applyScales_mapTimes]

theorem invScaleY_mapTimes (g : τ → τ') (discrete : Bool) (s : Scale K) (y : Frame ι τ K) :
    invScaleY discrete s (y.mapTimes g) = (invScaleY discrete s y).map (Frame.mapTimes g) := by
  unfold invScaleY
  rw [rowScales_mapTimes]
  split
  · rfl
  · cases rowScales s y with
    | error e => rfl
    | ok ss =>
      simp only [bind, Except.bind, pure, Except.pure, Except.map, applyScales_mapTimes]

theorem fitTarget_mapTimes (g : τ → τ') (discrete : Bool) (user : Option (Scale K))
    (y : Frame String τ K) : fitTarget discrete user (y.mapTimes g)
      = (fitTarget discrete user y).map (Prod.map id (Frame.mapTimes g)) := by
  unfold fitTarget
  rw [setYScales_mapTimes]
  cases setYScales user y with
  | error e => rfl
  | ok s =>
    simp only [bind, Except.bind, scaleY_mapTimes]
    cases scaleY discrete s y <;> rfl

theorem trendTarget_mapTimes (g : τ → τ') (discrete : Bool) (s : Scale K) (y : Frame String τ K) :
    trendTarget discrete s (y.mapTimes g) = (trendTarget discrete s y).map (Frame.mapTimes g) := by
  unfold trendTarget
  split
  · cases s.divisor with
    | error e => rfl
    | ok k => simp only [Except.map, mapVals_mapTimes]
  · rfl

/-! ## Forecasts -/

theorem periodindexToMultiindex_map (g : τ → τ') (ctx : Fitted K) (fh : List τ) :
    periodindexToMultiindex ctx (fh.map g)
      = (periodindexToMultiindex ctx fh).map (List.map (Prod.map id g)) := by
  unfold periodindexToMultiindex
  split
  · simp [Except.map, Function.comp_def]
  · split
    · rfl
    · simp only [Except.map, product_map_right]

theorem zipWith_map_index {β : Type} (g : τ → τ') (f : Nat → β → K) (idx : List (List String × τ))
    (l : List Nat) :
    List.zipWith (fun i (k : List String × τ') => (⟨k.1, k.2, f i⟩ : Row β τ' K)) l
        (idx.map (Prod.map id g))
      = (List.zipWith (fun i (k : List String × τ) => (⟨k.1, k.2, f i⟩ : Row β τ K)) l idx).map
          fun r => ⟨r.sid, g r.time, r.val⟩ := by
  rw [List.zipWith_map_right, List.map_zipWith]
  rfl

theorem frameOfMatrix_map (g : τ → τ') (nl : Nat) (d : List K) (m n : Nat)
    (idx : List (List String × τ)) : frameOfMatrix nl d m n (idx.map (Prod.map id g))
      = (frameOfMatrix nl d m n idx).map (Frame.mapTimes g) := by
  unfold frameOfMatrix
  rw [List.length_map]
  split
  · simp only [Except.map]
    rw [zipWith_map_index g fun i s => d.getD (i * n + s) 0]
    rfl
  · rfl

theorem predictSamples_map (hg : StrictMono g) (ctx : Fitted K) (obs : Tensor K) (fh : List τ) :
    predictSamples ctx obs (fh.map g)
      = (predictSamples ctx obs fh).map (Frame.mapTimes g) := by
  unfold predictSamples
  rw [periodindexToMultiindex_map]
  cases obs.shape with
  | nil => rfl
  | cons n sh =>
    simp only [pure, Except.pure, bind, Except.bind]
    cases obs.transpose.reshapeInfer n with
    | error e => rfl
    | ok d =>
      simp only
      cases periodindexToMultiindex ctx fh with
      | error e => rfl
      | ok idx =>
        simp only [Except.map, frameOfMatrix_map]
        cases frameOfMatrix ctx.yNlevels d.data (d.shape.headD 0) n idx with
        | error e => rfl
        | ok f =>
          simp only
          rw [sortIndex_mapTimes hg, invScaleY_mapTimes]
          rfl

theorem predictPoint_mapTimes (g : τ → τ') (name : String) (f : Frame Nat τ K) :
    predictPoint name (f.mapTimes g) = (predictPoint name f).mapTimes g := by
  simp [predictPoint, Frame.mapTimes, Function.comp_def]

theorem predictQuantiles_mapTimes [FloorRing K] (g : τ → τ') (name : String) (alphas : List K)
    (f : Frame Nat τ K) : predictQuantiles name alphas (f.mapTimes g)
      = (predictQuantiles name alphas f).map (Frame.mapTimes g) := by
  unfold predictQuantiles
  split
  · simp [Except.map, Frame.mapTimes, Function.comp_def]
  · rfl

theorem predictAllSites_map (hg : StrictMono g) (ctx : Fitted K) (sites : PyDict (Tensor K))
    (fh : List τ) : predictAllSites ctx sites (fh.map g)
      = (predictAllSites ctx sites fh).map (Frame.mapTimes g) := by
  unfold predictAllSites
  rw [periodindexToMultiindex_map]
  cases periodindexToMultiindex ctx fh with
  | error e => rfl
  | ok idx =>
    simp only [Except.map, bind, Except.bind, List.length_map]
    split
    · rw [zipWith_map_index g fun i c => ((PyDict.get? (sites.map fun p =>
        (p.1, p.2.meanAxis0.flatten)) c).getD []).getD i 0]
      generalize List.zipWith (fun i (k : List String × τ) => (⟨k.1, k.2, fun c =>
        ((PyDict.get? (sites.map fun p => (p.1, p.2.meanAxis0.flatten)) c).getD []).getD i 0⟩ :
          Row String τ K)) (List.range idx.length) idx = rows
      generalize (sites.map fun p => (p.1, p.2.meanAxis0.flatten)).map Prod.fst = cols
      have h := sortIndex_mapTimes hg (⟨ctx.yNlevels, cols, rows⟩ : Frame String τ K)
      have h2 := invScaleY_mapTimes g ctx.discrete ctx.scale
        (sortIndex (⟨ctx.yNlevels, cols, rows⟩ : Frame String τ K))
      rw [← h] at h2
      exact h2
    · rfl

theorem siteSamples_map (g : τ → τ') (ctx : Fitted K) (site : Tensor K) (fh : List τ) :
    siteSamples ctx site (fh.map g)
      = (siteSamples ctx site fh).map
          (List.map (Prod.map (Prod.map id (Prod.map id g)) id)) := by
  unfold siteSamples
  rw [periodindexToMultiindex_map]
  cases site.shape with
  | nil => rfl
  | cons n sh =>
    simp only [pure, Except.pure, bind, Except.bind]
    cases periodindexToMultiindex ctx fh with
    | error e => rfl
    | ok idx =>
      simp only [Except.map]
      have hp : product (List.range n) (idx.map (Prod.map id g))
          = (product (List.range n) idx).map (Prod.map id (Prod.map id g)) := by
        simp [product, List.map_flatMap, Function.comp_def]
      rw [hp, List.length_map]
      split
      · congr 1
        rw [← List.map_id (site.flatten), List.zip_map]
        simp
      · rfl

end
end PV
