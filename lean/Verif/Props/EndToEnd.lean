import Verif.Lemmas.AfterFit
import Verif.Lemmas.Dict
import Verif.Props.Coherence
import Verif.Props.Quantiles
import Verif.Props.Samples
import Verif.Props.World

/-!
# C88: the prediction methods of a fitted forecaster agree

Statements about calls of `fit` and of the prediction methods on forecaster objects (`World`), in
any world, so with any objects shared and after any history.
-/

namespace PV
section
variable {S τ D K F κ G Θ P H : Type} [Field K] [LinearOrder K] [IsStrictOrderedRing K]
  [FloorRing K] [LinearOrder τ]

theorem samplesOf_frame {hier : Option (HierOpts τ K)} {ctx : Fitted K} {obs : Tensor K}
    {fh : List τ} {f : Frame Nat τ K} (h : samplesOf hier ctx obs fh = .ok f) :
    ∃ n, n ≠ 0 ∧ f.cols = List.range n := by
  unfold samplesOf at h
  cases hier with
  | none => exact (predictSamples_frame h).1
  | some o =>
    simp only [predictSamplesHier, bind, Except.bind] at h
    cases hg : predictSamples ctx obs fh with
    | error e => rw [hg] at h; cases h
    | ok g =>
      rw [hg] at h
      cases h
      obtain ⟨n, hn, hc⟩ := (predictSamples_frame hg).1
      refine ⟨n, hn, ?_⟩
      rw [← hc]
      unfold aggregate
      split <;> rfl

/-- The samples of a fitted forecaster, with the pieces they are made of. -/
theorem samples_returned {np : Numpyro κ G (ModelArgs D K) K Θ P (Draws K)}
    {horizon : List τ → H → List τ} {w w' : World S τ D K F κ G Θ P} {i : Nat}
    {y : Frame String τ K} {X X' : Option (Frame String τ K)} {fh : H} {f : Frame Nat τ K}
    (hfit : w.fit np i y X = (.ok (), w'))
    (hs : (w'.predict np horizon i .samples X' fh).1 = .ok (.samples f)) :
    ∃ fc0 fc p eng ys a a' d obs, w.fcs[i]? = some fc0 ∧ w'.fcs[i]? = some fc ∧
      FittedOn np fc0.cfg y fc p eng ys a ∧
      predictArgs w'.heap w'.feats fc.cfg p X' (horizon p.y.times fh) = .ok a' ∧
      eng.draws np a' = .ok d ∧ d.get? "obs" = some obs ∧
      samplesOf fc0.cfg.hier (p.ctx fc0.cfg) obs (horizon y.times fh) = .ok f := by
  obtain ⟨fc0, fc, p, eng, ys, a, h0, h1, hF⟩ := fit_returned hfit
  obtain ⟨a', d, ha, hd, hans⟩ := predict_returned h1 hF.prepared hF.engine hs
  simp only [Query.answer, bind, Except.bind] at hans
  cases ho : d.getItem "obs" with
  | error e => rw [ho] at hans; cases hans
  | ok obs =>
    rw [ho] at hans
    simp only at hans
    cases hf : samplesOf fc.cfg.hier (p.ctx fc.cfg) obs (horizon p.y.times fh) with
    | error e => rw [hf] at hans; cases hans
    | ok f' =>
      rw [hf] at hans
      cases hans
      rw [hF.cfg_eq, hF.target] at hf
      exact ⟨fc0, fc, p, eng, ys, a, a', d, obs, h0, h1, hF, ha, hd, PyDict.getItem_ok.1 ho, hf⟩

/-- **C88**: `predict` on a fitted forecaster returns whenever `predict_samples` does, for the same
rows and with the name of the target as its only column, and every value is the mean of the samples
of that row. -/
theorem C88_point {np : Numpyro κ G (ModelArgs D K) K Θ P (Draws K)}
    {horizon : List τ → H → List τ} {w w' : World S τ D K F κ G Θ P} {i : Nat}
    {y : Frame String τ K} {c : String} (hc : y.cols = [c]) {X X' : Option (Frame String τ K)}
    {fh : H} {f : Frame Nat τ K} (hfit : w.fit np i y X = (.ok (), w'))
    (hs : (w'.predict np horizon i .samples X' fh).1 = .ok (.samples f)) :
    ∃ g, (w'.predict np horizon i .point X' fh).1 = .ok (.point g) ∧
      g.index = f.index ∧ g.cols = [c] ∧ f.cols ≠ [] ∧
      List.Forall₂ (fun (p : Row String τ K) (r : Row Nat τ K) =>
        p.sid = r.sid ∧ p.time = r.time ∧
        p.val c * (f.cols.length : K) = (f.cols.map r.val).sum) g.rows f.rows := by
  obtain ⟨fc0, fc, p, eng, ys, a, a', d, obs, h0, h1, hF, ha, hd, ho, hf⟩ :=
    samples_returned hfit hs
  obtain ⟨n, hn, hcols⟩ := samplesOf_frame hf
  have hne : f.cols ≠ [] := by
    rw [hcols]
    simpa using hn
  have hname : p.y.cols.headD "" = c := by rw [hF.target, hc]; rfl
  refine ⟨predictPoint c f, ?_, (C07_point_is_mean c hne).1, (C07_point_is_mean c hne).2.1, hne,
    (C07_point_is_mean c hne).2.2.2⟩
  rw [predict_eq .point h1 hF.fitted hF.prepared hF.engine ha hd, hname, hF.cfg_eq, hF.target]
  simp only [Query.answer, bind, Except.bind, PyDict.getItem_ok.2 ho, hf, pure, Except.pure]

/-- **C88**: `predict_quantiles` likewise, for probabilities between 0 and 1: one column per
probability, labelled with the target and the probability, and every value is that quantile of the
samples of the row. -/
theorem C88_quantiles {np : Numpyro κ G (ModelArgs D K) K Θ P (Draws K)}
    {horizon : List τ → H → List τ} {w w' : World S τ D K F κ G Θ P} {i : Nat}
    {y : Frame String τ K} {c : String} (hc : y.cols = [c]) {X X' : Option (Frame String τ K)}
    {fh : H} {f : Frame Nat τ K} (hfit : w.fit np i y X = (.ok (), w'))
    (hs : (w'.predict np horizon i .samples X' fh).1 = .ok (.samples f))
    (alpha : AlphaArg K) (halpha : ∀ a ∈ alpha.toList, 0 ≤ a ∧ a ≤ 1) :
    ∃ g, (w'.predict np horizon i (.quantiles alpha) X' fh).1 = .ok (.quantiles g) ∧
      g.index = f.index ∧ g.cols = alpha.toList.map (fun a => (c, a)) ∧
      List.Forall₂ (fun (p : Row (String × K) τ K) (r : Row Nat τ K) =>
        p.sid = r.sid ∧ p.time = r.time ∧
        ∀ a ∈ alpha.toList, IsQuantile (f.cols.map r.val) a (p.val (c, a))) g.rows f.rows := by
  obtain ⟨fc0, fc, p, eng, ys, a, a', d, obs, h0, h1, hF, ha, hd, ho, hf⟩ :=
    samples_returned hfit hs
  obtain ⟨n, hn, hcols⟩ := samplesOf_frame hf
  have hne : f.cols ≠ [] := by
    rw [hcols]
    simpa using hn
  have hname : p.y.cols.headD "" = c := by rw [hF.target, hc]; rfl
  obtain ⟨g, hg⟩ := ((C08_accepts c f).1 alpha.toList).2 halpha
  obtain ⟨g1, g2, g3⟩ := C08_labelled hne hg
  refine ⟨g, ?_, g1, g2, g3⟩
  rw [predict_eq (.quantiles alpha) h1 hF.fitted hF.prepared hF.engine ha hd, hname, hF.cfg_eq,
    hF.target]
  simp only [Query.answer, bind, Except.bind, PyDict.getItem_ok.2 ho, hf, hg, pure, Except.pure]

/-! ## Labels and units -/

omit [FloorRing K] in
theorem fitTarget_frame {discrete : Bool} {user : Option (Scale K)} {y ys : Frame String τ K}
    {s : Scale K} (h : fitTarget discrete user y = .ok (s, ys)) :
    ∃ σ : List String → K, ys = y.mapVals (fun s v => v / σ s) ∧
      ∀ r ∈ y.rows, (discrete = true ∧ σ r.sid = 1) ∨
        (discrete = false ∧ s = .float (σ r.sid)) ∨
        (discrete = false ∧ y.nlevels ≠ 1 ∧ ∃ e, s = .table e ∧
          (e.find? fun p => p.1 = r.sid) = some (r.sid, σ r.sid)) := by
  unfold fitTarget at h
  simp only [bind, Except.bind] at h
  cases hs : setYScales user y with
  | error e => rw [hs] at h; cases h
  | ok s' =>
    rw [hs] at h
    simp only at h
    cases hy : scaleY discrete s' y with
    | error e => rw [hy] at h; cases h
    | ok ys' =>
      rw [hy] at h
      cases h
      unfold scaleY at hy
      cases discrete with
      | true =>
        simp only [if_true, pure, Except.pure, Except.ok.injEq] at hy
        subst hy
        refine ⟨fun _ => 1, ?_, fun r _ => .inl ⟨rfl, rfl⟩⟩
        obtain ⟨nl, cs, rows⟩ := y
        simp [Frame.mapVals]
      | false =>
        simp only [Bool.false_eq_true, if_false, bind, Except.bind] at hy
        cases hr : rowScales s y with
        | error e => rw [hr] at hy; cases hy
        | ok ss =>
          rw [hr] at hy
          simp only [pure, Except.pure, Except.ok.injEq] at hy
          obtain ⟨σ, rfl, -⟩ := rowScales_fun hr
          rw [applyScales_map] at hy
          refine ⟨σ, hy.symm, fun r hrm => .inr ?_⟩
          cases s with
          | float x =>
            simp only [rowScales, pure, Except.pure, Except.ok.injEq] at hr
            exact .inl ⟨rfl, by rw [(List.map_inj_left.1 hr) r hrm]⟩
          | int n => simp [rowScales, throw, throwThe, MonadExceptOf.throw] at hr
          | table e =>
            simp only [rowScales] at hr
            split at hr
            · cases hr
            · rename_i hnl
              rw [mapM_ok_iff, List.forall₂_map_right_iff, List.forall₂_same] at hr
              have := hr r hrm
              refine .inr ⟨rfl, hnl, e, rfl, ?_⟩
              unfold lookupScale at this
              cases hf : e.find? (fun p => p.1 = r.sid) with
              | none => rw [hf] at this; cases this
              | some p =>
                rw [hf] at this
                simp only [pure, Except.pure, Except.ok.injEq] at this
                have h2 := List.find?_some hf
                simp only [decide_eq_true_eq] at h2
                rw [← this, ← h2]

/-- **C88**, one series: the model is trained on the observations divided by one number (which is 1
for count data), and the samples, one row per date of the horizon in order, are the draws for that
date multiplied by the same number. -/
theorem C88_single_series {np : Numpyro κ G (ModelArgs D K) K Θ P (Draws K)}
    {horizon : List τ → H → List τ} {w w' : World S τ D K F κ G Θ P} {i : Nat}
    {y : Frame String τ K} {c : String} (hc : y.cols = [c]) (hn : y.nlevels = 1) (hy : y.rows ≠ [])
    {X X' : Option (Frame String τ K)} {fh : H} {f : Frame Nat τ K}
    {fc0 : Fc S τ D K κ G Θ P} (h0 : w.fcs[i]? = some fc0) (hu : fc0.cfg.hier = none)
    (hfit : w.fit np i y X = (.ok (), w'))
    (hs : (w'.predict np horizon i .samples X' fh).1 = .ok (.samples f))
    (hfh : (horizon y.times fh).Pairwise (· < ·)) :
    f.index = (horizon y.times fh).map (fun t => ([], t)) ∧
    ∃ (k : K) (e0 eng : Engine κ G K Θ P (Draws K)) (a a' : ModelArgs D K) (d : Draws K)
      (obs : Tensor K),
      (fc0.cfg.discrete = true → k = 1) ∧
      makeEngine np fc0.cfg = .ok e0 ∧ e0.infer np a = (.ok (), eng) ∧
      a.y = some ⟨[y.rows.length, 1], y.rows.map fun r => r.val c / k⟩ ∧
      eng.draws np a' = .ok d ∧ d.get? "obs" = some obs ∧
      ∀ m l, obs.WF → obs.shape = m :: (List.replicate l 1 ++ [(horizon y.times fh).length, 1]) →
        f.cols = List.range m ∧ ∀ (t : Nat) (r : Row Nat τ K), f.rows[t]? = some r →
          ∀ s < m, ∃ v, obs.get? (s :: (List.replicate l 0 ++ [t, 0])) = some v ∧
            r.val s = v * k := by
  obtain ⟨fc0', fc, p, eng, ys, a, a', d, obs, h0', h1, hF, ha, hd, ho, hf⟩ :=
    samples_returned hfit hs
  rw [h0] at h0'
  cases h0'
  obtain ⟨σ, hys, hσ⟩ := fitTarget_frame hF.scale
  have htr := hF.trained
  rw [hu] at htr hf
  have hctx1 : (p.ctx fc0.cfg).yNlevels = 1 := by
    show p.y.nlevels = 1
    rw [hF.target, hn]
  have hfs : forecastSeries (p.ctx fc0.cfg) = [[]] := by
    unfold forecastSeries
    rw [if_pos hctx1]
  obtain ⟨-, hperm, hsorted, -⟩ := predictSamples_frame hf
  have hprod : product (forecastSeries (p.ctx fc0.cfg)) (horizon y.times fh)
      = (horizon y.times fh).map fun t => ([], t) := by
    rw [hfs]
    simp [product]
  rw [hprod] at hperm
  have hidx : f.index = (horizon y.times fh).map (fun t => ([], t)) := by
    refine List.Perm.eq_of_pairwise (le := fun a b => toLex a ≤ toLex b) ?_ hsorted ?_ hperm
    · intro a b _ _ h1 h2
      exact toLex.injective (le_antisymm h1 h2)
    · rw [List.pairwise_map]
      refine hfh.imp fun {a b} hab => ?_
      exact Prod.Lex.le_iff.2 (Or.inr ⟨rfl, le_of_lt hab⟩)
  refine ⟨hidx, ?_⟩
  obtain ⟨e0, he0, hinf⟩ := hF.inferred
  -- the divisor is the same for all rows
  obtain ⟨r0, hr0⟩ := List.exists_mem_of_ne_nil _ hy
  have hk : ∃ k, (∀ r ∈ y.rows, σ r.sid = k) ∧ (fc0.cfg.discrete = true → k = 1) ∧
      (fc0.cfg.discrete = true ∨ p.scale = .float k) := by
    rcases hσ r0 hr0 with ⟨hd1, -⟩ | ⟨hd1, hsc⟩ | ⟨-, hnl, -⟩
    · refine ⟨1, fun r hr => ?_, fun _ => rfl, .inl hd1⟩
      rcases hσ r hr with ⟨-, h⟩ | ⟨h, -⟩ | ⟨h, -⟩
      · exact h
      · rw [hd1] at h; cases h
      · rw [hd1] at h; cases h
    · refine ⟨σ r0.sid, fun r hr => ?_, fun h => (by rw [hd1] at h; cases h), .inr hsc⟩
      rcases hσ r hr with ⟨h, -⟩ | ⟨-, h⟩ | ⟨-, hnl, -⟩
      · rw [hd1] at h; cases h
      · rw [hsc] at h
        exact (Scale.float.inj h).symm
      · exact absurd hn hnl
    · exact absurd hn hnl
  obtain ⟨k, hk1, hk2, hk3⟩ := hk
  refine ⟨k, e0, eng, a, a', d, obs, hk2, he0, hinf, ?_, hd, ho, ?_⟩
  · rw [htr.2]
    have hv : ys.flatVals ys.rows = y.rows.map fun r => r.val c / k := by
      rw [hys]
      unfold Frame.flatVals
      simp only [Frame.mapVals, hc, List.flatMap_map, List.map_cons, List.map_nil]
      rw [← List.map_eq_flatMap]
      exact List.map_congr_left fun r hr => by rw [hk1 r hr]
    unfold columnArray
    rw [hv, List.length_map]
  · intro m l hw hsh
    have hsh' : obs.shape = m :: (List.replicate l 1 ++ [(horizon y.times fh).length,
        (forecastSeries (p.ctx fc0.cfg)).length]) := by rw [hfs]; exact hsh
    obtain ⟨hcols, hal⟩ := C06_sample_alignment hw hsh' hf
    refine ⟨hcols, fun t r hr s hsm => ?_⟩
    obtain ⟨i', t', hi', ht', c', hsc, hv⟩ := hal r (List.mem_of_getElem? hr)
    rw [hfs] at hi'
    have hi0 : i' = 0 := by
      have := (List.getElem?_eq_some_iff.1 hi').1
      simpa using this
    have htt : t' = t := by
      have e1 : f.index[t]? = some (r.sid, r.time) := by
        unfold Frame.index
        rw [List.getElem?_map, hr]
        rfl
      rw [hidx, List.getElem?_map] at e1
      cases e2 : (horizon y.times fh)[t]? with
      | none => rw [e2] at e1; cases e1
      | some u =>
        rw [e2] at e1
        have hut : u = r.time := congrArg Prod.snd (Option.some.inj e1)
        have hnd : (horizon y.times fh).Nodup := hfh.imp fun h => ne_of_lt h
        obtain ⟨l1, q1⟩ := List.getElem?_eq_some_iff.1 e2
        obtain ⟨l2, q2⟩ := List.getElem?_eq_some_iff.1 ht'
        exact (List.Nodup.getElem_inj_iff hnd).1 (q2.trans (by rw [q1, hut]))
    subst hi0 htt
    obtain ⟨v, hv1, hv2⟩ := hv s hsm
    refine ⟨v, hv1, ?_⟩
    rw [hv2]
    rcases hsc with ⟨hd1, rfl⟩ | ⟨hd1, hsc⟩ | ⟨hd1, e, hsc, -⟩
    · rw [hk2 hd1]
    · rcases hk3 with h | h
      · exact absurd (show fc0.cfg.discrete = false from hd1) (by rw [h]; simp)
      · have : p.scale = .float c' := hsc
        rw [h] at this
        cases this
        rfl
    · rcases hk3 with h | h
      · exact absurd (show fc0.cfg.discrete = false from hd1) (by rw [h]; simp)
      · have : p.scale = .table e := hsc
        rw [h] at this
        cases this

/-! ## Hierarchies -/

omit [IsStrictOrderedRing K] [FloorRing K] in
theorem mem_aggregate {ι : Type} {keep : List String → Bool} {f : Frame ι τ K}
    (hn : f.nlevels ≠ 1) {r : Row ι τ K} (hr : r ∈ (aggregate keep f).rows) :
    r ∈ bottomRows f ∨ r.sid.getLast? = some "__total" := by
  rw [aggregate_eq keep hn] at hr
  have hr := (sortIndex_perm _).mem_iff.1 hr
  simp only at hr
  unfold aggRows at hr
  rcases List.mem_append.1 hr with h | h
  · exact .inl h
  · right
    obtain ⟨i, hi, h⟩ := List.mem_flatMap.1 (List.mem_of_mem_filter h)
    rw [List.mem_range] at hi
    unfold aggLevel at h
    obtain ⟨g, -, rfl⟩ := List.mem_map.1 h
    rw [List.getLast?_append, List.getLast?_replicate, if_neg (by omega)]
    rfl

/-- **C88**, hierarchies: the samples of a fitted `HierarchicalProphet` have a row for every series
of the training data that is not an aggregate and every date of the horizon, and no other series but
aggregates; the samples of an aggregate are, sample by sample, the sums over the series below it in
the same table. -/
theorem C88_hierarchy {np : Numpyro κ G (ModelArgs D K) K Θ P (Draws K)}
    {horizon : List τ → H → List τ} {w w' : World S τ D K F κ G Θ P} {i : Nat}
    {y : Frame String τ K} (hn : y.nlevels ≠ 1) (hw : y.WF)
    {X X' : Option (Frame String τ K)} {fh : H} {f : Frame Nat τ K}
    {fc0 : Fc S τ D K κ G Θ P} (h0 : w.fcs[i]? = some fc0) {o : HierOpts τ K}
    (hh : fc0.cfg.hier = some o) (hfit : w.fit np i y X = (.ok (), w'))
    (hs : (w'.predict np horizon i .samples X' fh).1 = .ok (.samples f)) :
    (∀ s t, "__total" ∉ s → ((s, t) ∈ f.index ↔
      (∃ r ∈ y.rows, r.sid = s) ∧ t ∈ horizon y.times fh)) ∧
    (∀ r ∈ f.rows, "__total" ∈ r.sid → ∃ p m, r.sid = p ++ List.replicate (m + 1) "__total" ∧
      "__total" ∉ p ∧ ∀ s, r.val s =
        ((f.rows.filter fun r' => "__total" ∉ r'.sid ∧ p <+: r'.sid ∧ r'.time = r.time).map
          fun r' => r'.val s).sum) ∧
    (∀ r ∈ f.rows, "__total" ∉ r.sid → ∀ p q, r.sid = p ++ q → q ≠ [] →
      o.keep (p ++ List.replicate q.length "__total") = true →
      (p ++ List.replicate q.length "__total", r.time) ∈ f.index) := by
  obtain ⟨fc0', fc, p, eng, ys, a, a', d, obs, h0', h1, hF, ha, hd, ho, hf⟩ :=
    samples_returned hfit hs
  rw [h0] at h0'
  cases h0'
  obtain ⟨σ, hys, -⟩ := fitTarget_frame hF.scale
  have htr := hF.trained
  rw [hh] at htr hf
  have hsids : p.ySids = (aggregate o.keep ys).index.map Prod.fst := htr.1
  have hnys : ys.nlevels ≠ 1 := by rw [hys]; exact hn
  have hctx : (p.ctx fc0.cfg).yNlevels = y.nlevels := by
    show p.y.nlevels = _
    rw [hF.target]
  have hctxh : (p.ctx fc0.cfg).hierarchical = true := by
    show fc0.cfg.hier.isSome = true
    rw [hh]
    rfl
  -- the series forecast before aggregation
  have hbot : ∀ s, s ∈ forecastSeries (p.ctx fc0.cfg) ↔
      "__total" ∉ s ∧ ∃ r ∈ y.rows, r.sid = s := by
    intro s
    rw [(C09_series (p.ctx fc0.cfg) s).2.2.2 (by rw [hctx]; exact hn) hctxh]
    have e1 : (p.ctx fc0.cfg).internalSids = (aggregate o.keep ys).index.map Prod.fst := hsids
    rw [e1]
    have hb : ∀ s, (∃ r ∈ bottomRows ys, r.sid = s) ↔ "__total" ∉ s ∧ ∃ r ∈ y.rows, r.sid = s := by
      intro s
      unfold bottomRows
      rw [hys]
      simp only [Frame.mapVals, List.mem_filter, List.mem_map, decide_eq_true_eq]
      constructor
      · rintro ⟨r, ⟨⟨r0, hr0, rfl⟩, h2⟩, rfl⟩
        exact ⟨h2, r0, hr0, rfl⟩
      · rintro ⟨h2, r0, hr0, rfl⟩
        exact ⟨_, ⟨⟨r0, hr0, rfl⟩, h2⟩, rfl⟩
    rw [← hb]
    constructor
    · rintro ⟨hm, hl⟩
      obtain ⟨q, hq, rfl⟩ := List.mem_map.1 hm
      unfold Frame.index at hq
      obtain ⟨r, hr, rfl⟩ := List.mem_map.1 hq
      rcases mem_aggregate hnys hr with h | h
      · exact ⟨r, h, rfl⟩
      · exact absurd h hl
    · rintro ⟨r, hr, rfl⟩
      have hr' : r ∈ bottomRows (aggregate o.keep ys) :=
        (bottomRows_aggregate o.keep hnys).mem_iff.2 hr
      refine ⟨List.mem_map.2 ⟨(r.sid, r.time), List.mem_map.2
        ⟨r, List.mem_of_mem_filter hr', rfl⟩, rfl⟩, fun h => ?_⟩
      have : "__total" ∉ r.sid := by simpa using (List.mem_filter.1 hr).2
      exact this (List.mem_of_getLast? h)
  simp only [samplesOf, predictSamplesHier, bind, Except.bind] at hf
  cases hg : predictSamples (p.ctx fc0.cfg) obs (horizon y.times fh) with
  | error e => rw [hg] at hf; cases hf
  | ok g =>
    rw [hg] at hf
    cases hf
    obtain ⟨-, hperm, -, hnl⟩ := predictSamples_frame hg
    have hgn : g.nlevels ≠ 1 := by rw [hnl, hctx]; exact hn
    have hgidx : ∀ s t, (s, t) ∈ g.index ↔
        ("__total" ∉ s ∧ ∃ r ∈ y.rows, r.sid = s) ∧ t ∈ horizon y.times fh := by
      intro s t
      rw [hperm.mem_iff, mem_product, hbot]
    have hgres : NoReserved g := fun r hr =>
      ((hgidx r.sid r.time).1 (List.mem_map.2 ⟨r, hr, rfl⟩)).1.1
    have hgw : g.WF := fun r hr => by
      obtain ⟨⟨-, r0, hr0, he⟩, -⟩ := (hgidx r.sid r.time).1 (List.mem_map.2 ⟨r, hr, rfl⟩)
      rw [hnl, hctx, ← he]
      exact hw r0 hr0
    have hbr : bottomRows g = g.rows := noTotal_eq_self hgres
    have hpb : ((aggregate o.keep g).rows.filter fun r => "__total" ∉ r.sid).Perm g.rows := by
      have := bottomRows_aggregate o.keep hgn
      rw [hbr] at this
      exact this
    refine ⟨fun s t hs => ?_, fun r hr ht => ?_, fun r hr ht pre q hpq hq hkeep => ?_⟩
    · have e : (s, t) ∈ (aggregate o.keep g).index ↔ (s, t) ∈ g.index := by
        unfold Frame.index
        simp only [List.mem_map, Prod.mk.injEq]
        constructor
        · rintro ⟨r, hr, rfl, rfl⟩
          exact ⟨r, hpb.mem_iff.1 (List.mem_filter.2 ⟨hr, by simpa using hs⟩), rfl, rfl⟩
        · rintro ⟨r, hr, rfl, rfl⟩
          exact ⟨r, List.mem_of_mem_filter (hpb.mem_iff.2 hr), rfl, rfl⟩
      rw [e, hgidx]
      exact ⟨fun ⟨⟨_, h⟩, h'⟩ => ⟨h, h'⟩, fun ⟨h, h'⟩ => ⟨⟨hs, h⟩, h'⟩⟩
    · obtain ⟨-, hagg, -⟩ := C10_aggregate_coherent o.keep hgw hgn hgres
      have hlast : r.sid.getLast? = some "__total" := by
        rcases mem_aggregate hgn hr with h | h
        · exact absurd ht (by simpa using (List.mem_filter.1 h).2)
        · exact h
      obtain ⟨pre, m, h1, h2, -, h3⟩ := hagg r hr hlast
      refine ⟨pre, m, h1, h2, fun s => ?_⟩
      rw [h3 s]
      unfold sumBelow
      have : ((aggregate o.keep g).rows.filter fun r' =>
          "__total" ∉ r'.sid ∧ pre <+: r'.sid ∧ r'.time = r.time).Perm
          (g.rows.filter fun r' => pre <+: r'.sid ∧ r'.time = r.time) := by
        refine List.Perm.trans ?_ (hpb.filter _)
        rw [List.filter_filter]
        refine List.Perm.of_eq (List.filter_congr fun x _ => ?_)
        simp only [Bool.decide_and]
        cases decide ("__total" ∉ x.sid) <;> cases decide (pre <+: x.sid) <;>
          cases decide (x.time = r.time) <;> rfl
      exact ((this.map _).sum_eq).symm
    · have hrg : r ∈ g.rows := hpb.mem_iff.1 (List.mem_filter.2 ⟨hr, by simpa using ht⟩)
      obtain ⟨r1, hr1, e1, e2⟩ := C10_aggregates_present hgw hgn hgres hrg hpq hq hkeep
      exact List.mem_map.2 ⟨r1, hr1, by rw [e1, e2]⟩

/-- **C88**: the point forecast of an aggregate is the sum of the point forecasts of the series below
it. -/
theorem C88_point_hierarchy {np : Numpyro κ G (ModelArgs D K) K Θ P (Draws K)}
    {horizon : List τ → H → List τ} {w w' : World S τ D K F κ G Θ P} {i : Nat}
    {y : Frame String τ K} {c : String} (hc : y.cols = [c]) (hn : y.nlevels ≠ 1) (hw : y.WF)
    {X X' : Option (Frame String τ K)} {fh : H} {f : Frame Nat τ K}
    {fc0 : Fc S τ D K κ G Θ P} (h0 : w.fcs[i]? = some fc0) {o : HierOpts τ K}
    (hh : fc0.cfg.hier = some o) (hfit : w.fit np i y X = (.ok (), w'))
    (hs : (w'.predict np horizon i .samples X' fh).1 = .ok (.samples f)) :
    ∃ g, (w'.predict np horizon i .point X' fh).1 = .ok (.point g) ∧
      ∀ r ∈ g.rows, "__total" ∈ r.sid → ∃ p m, r.sid = p ++ List.replicate (m + 1) "__total" ∧
        "__total" ∉ p ∧ r.val c =
          ((g.rows.filter fun r' => "__total" ∉ r'.sid ∧ p <+: r'.sid ∧ r'.time = r.time).map
            fun r' => r'.val c).sum := by
  obtain ⟨g, hg, -, -, hne, hrows⟩ := C88_point hc hfit hs
  obtain ⟨-, hagg, -⟩ := C88_hierarchy hn hw h0 hh hfit hs
  refine ⟨g, hg, fun r hr ht => ?_⟩
  have hlen : (f.cols.length : K) ≠ 0 := by
    rw [Nat.cast_ne_zero, Ne, List.length_eq_zero_iff]
    exact hne
  obtain ⟨r', hr', h1, h2, h3⟩ : ∃ r' ∈ f.rows, r.sid = r'.sid ∧ r.time = r'.time ∧
      r.val c * (f.cols.length : K) = (f.cols.map r'.val).sum := by
    obtain ⟨n, hn', rfl⟩ := List.getElem_of_mem hr
    have hl := hrows.length_eq
    exact ⟨f.rows[n]'(by omega), List.getElem_mem _, hrows.get hn' (by omega)⟩
  obtain ⟨p, m, q1, q2, q3⟩ := hagg r' hr' (h1 ▸ ht)
  refine ⟨p, m, h1.trans q1, q2, ?_⟩
  refine mul_right_cancel₀ hlen ?_
  rw [h3, List.map_congr_left fun s _ => q3 s, ← List.sum_map_mul_right, h2]
  clear hagg q3 hr' hr h3 h2 hg hs q1 q2 h1 ht
  revert hrows
  generalize r'.time = t
  generalize g.rows = gl
  generalize f.rows = fl
  intro hrows
  induction hrows with
  | nil => simp
  | cons h _ ih =>
    rename_i a b _ _
    obtain ⟨e1, e2, e3⟩ := h
    simp only [List.filter_cons, e1, e2]
    split
    · simp only [List.map_cons, List.sum_cons]
      rw [← ih, e3, List.sum_map_add]
    · exact ih

end

/-! ## Examples

The hierarchical forecaster of `exMixed`, fitted on two series, and the univariate one. -/

/-- Two forecasters, not yet fitted: one for a single series, one for hierarchies. -/
def exBoth : World ExState ℤ (Tensor ℚ) ℚ ℚ Nat Unit Unit Unit :=
  exWorld.run exNumpyro exHorizon
    [.new (exConfigW (.named exTrendObj) none), .new (exConfigH (.named exTrendObj))]

/-- The rows of a frame of samples, and of a frame of point forecasts. -/
def Answer.rowsOf : Except PyErr (Answer ℤ ℚ) → Option (List (List String × ℤ × ℚ))
  | .ok (.samples f) => some (f.rows.map fun r => (r.sid, r.time, r.val 0))
  | .ok (.point f) => some (f.rows.map fun r => (r.sid, r.time, r.val "y"))
  | _ => none

/-- The hypotheses of the theorems about hierarchies: `fit` and `predict_samples` return, the frame
has as many labels as levels. -/
example : (exBoth.fit exNumpyro 1 (exPanelW 3 5) none).1.toOption = some () ∧
    (exBoth.fcs[1]?.bind fun fc => fc.cfg.hier.map fun o => o.keep ["__total"]) = some true ∧
    (exPanelW 3 5).cols = ["y"] ∧ (exPanelW 3 5).nlevels ≠ 1 ∧
    (∀ r ∈ (exPanelW 3 5).rows, r.sid.length + 1 = (exPanelW 3 5).nlevels) ∧
    Answer.rowsOf ((exBoth.fit exNumpyro 1 (exPanelW 3 5) none).2.predict exNumpyro exHorizon 1
      .samples none [4]).1 = some [(["__total"], 4, 195), (["a"], 4, 45), (["b"], 4, 150)] ∧
    Answer.rowsOf ((exBoth.fit exNumpyro 1 (exPanelW 3 5) none).2.predict exNumpyro exHorizon 1
      .point none [4]).1 = some [(["__total"], 4, 195), (["a"], 4, 45), (["b"], 4, 150)] := by
  decide +kernel

/-- The hypotheses of the theorem about one series. -/
example : (exBoth.fit exNumpyro 0 (exTarget [0, 1, 2, 3]) none).1.toOption = some () ∧
    (exBoth.fcs[0]?.map fun fc => fc.cfg.hier.isNone) = some true ∧
    (exTarget [0, 1, 2, 3]).cols = ["y"] ∧ (exTarget [0, 1, 2, 3]).nlevels = 1 ∧
    (Answer.rowsOf ((exBoth.fit exNumpyro 0 (exTarget [0, 1, 2, 3]) none).2.predict exNumpyro
      exHorizon 0 .samples none [4, 5]).1).map (fun l => l.map fun r => (r.1, r.2.1))
        = some [([], 4), ([], 5)] ∧
    (exHorizon (exTarget [0, 1, 2, 3]).times [4, 5]).Pairwise (· < ·) := by
  decide +kernel

end PV
