import Mathlib.Algebra.Order.Ring.Rat
import Verif.Lemmas.SameBottom
import Verif.Lemmas.SortedPanel
import Verif.Model.MultivariateData
import Verif.Model.TrendEffects

/-!
# C69: precomputed aggregates and the order of the series in `y` do not matter

`SameBottom` (same observations of bottom series), `Balanced` (every series at the same times).
-/

set_option linter.unusedSectionVars false

namespace PV

/-- The effect does not look at the scale in `fit`. -/
def Hooks.IgnoresScale {S Y Sc τ V D : Type} (h : Hooks S Y Sc τ V D) : Prop :=
  ∀ s y X sc sc', h.fit s y X sc = h.fit s y X sc'

section
variable {S Y Sc τ V D K : Type}

theorem fit_ignoresScale {e : EffectObj S Y Sc τ V D K} (h : e.cls.toHooks.IgnoresScale) (y : Y)
    (X : Option (Frame String τ V)) (sc sc' : Sc) : e.fit y X sc = e.fit y X sc' := by
  unfold EffectObj.fit baseFit
  simp only [h e.st.2 y X sc sc']

theorem fitEffects_ignoresScale (compile : String → PyM (String → Bool))
    {effects : List (EffectSpec S Y Sc τ V D K)} {default : EffectObj S Y Sc τ V D K}
    (he : ∀ e ∈ effects, e.effect.cls.toHooks.IgnoresScale)
    (hd : default.cls.toHooks.IgnoresScale) (X : Option (Frame String τ V)) (y : Y) (sc sc' : Sc) :
    fitEffects compile effects default X y sc = fitEffects compile effects default X y sc' := by
  have hfold : ∀ (l : List (EffectSpec S Y Sc τ V D K)) (acc : FitState S Y Sc τ V D K),
      (∀ e ∈ l, e.effect.cls.toHooks.IgnoresScale) →
      l.foldlM (fitStep compile X y sc) acc = l.foldlM (fitStep compile X y sc') acc := by
    intro l
    induction l with
    | nil => intros; rfl
    | cons e l ih =>
      intro acc hl
      have h1 : fitStep compile X y sc acc e = fitStep compile X y sc' acc e := by
        unfold fitStep
        have := fun X => fit_ignoresScale (e := e.effect.clone) (hl e (by simp)) y X sc sc'
        cases X <;> simp only [this]
      rw [List.foldlM_cons, List.foldlM_cons, h1]
      congr 1
      funext a
      exact ih a fun e' he' => hl e' (by simp [he'])
  unfold fitEffects
  rw [hfold effects _ he]
  have := fun X => fit_ignoresScale (e := default.clone) hd y X sc sc'
  cases X <;> simp only [this]

end

section
variable {S D K τ : Type} [Field K] [LinearOrder K] [IsStrictOrderedRing K] [LinearOrder τ]

/-- **C69**, fitting: with the same observations of bottom series, listed in any order, with or
without aggregates, the model gets the same data, and the fitted objects, warnings and errors are
the same. -/
theorem C69_fit {cfg : HierConfig S (Scale K) τ D K}
    (htrend : cfg.trend.cls.toHooks.IgnoresScale)
    (heff : ∀ e ∈ cfg.effects, e.effect.cls.toHooks.IgnoresScale)
    (hdef : cfg.default.cls.toHooks.IgnoresScale) {y y' : Frame String τ K}
    (h : SameBottom y y') (hn : 2 ≤ y.nlevels) (hw : y.WF) (hnd : y.index.Nodup)
    (hr : y.rows ≠ []) (hr' : y'.rows ≠ []) {ts : List τ} (hb : Balanced y ts)
    (hb' : Balanced y' ts) {user : Option (Scale K)} {s s' : Scale K} {ys ys' : Frame String τ K}
    (h1 : fitTarget false user y = .ok (s, ys)) (h2 : fitTarget false user y' = .ok (s', ys'))
    (X : Option (Frame String τ K)) :
    hierFitData { cfg with scale := s } ys X = hierFitData { cfg with scale := s' } ys' X := by
  obtain ⟨hsb, -, -, hlv, hidx, hidx'⟩ := scale_sameBottom h (by omega) h1 h2
  have hw' : ys.WF := by
    intro r hr
    have : (r.sid, r.time) ∈ y.index := hidx ▸ List.mem_map.2 ⟨r, hr, rfl⟩
    obtain ⟨r', hr', he⟩ := List.mem_map.1 this
    rw [hlv, ← hw r' hr', (Prod.mk.inj he).1]
  have hagg : aggregate cfg.keep ys = aggregate cfg.keep ys' := by
    refine aggregate_congr cfg.keep (by omega) hsb.levels hsb.cols hw' hsb.rows ?_
    have : ys.index.Nodup := hidx ▸ hnd
    exact this.sublist (List.Sublist.map _ List.filter_sublist)
  have ht : unique ys.times = unique ys'.times := by
    have e : ∀ z : Frame String τ K, z.times = z.index.map Prod.snd := by
      intro z; simp [Frame.times, Frame.index, Function.comp_def]
    rw [e, e, hidx, hidx', ← e, ← e, hb.times_eq hr, hb'.times_eq hr']
  unfold hierFitData
  have hex : ∀ (sc : Scale K) z, hierExog { cfg with scale := sc } z X = hierExog cfg z X := by
    intro sc z; rfl
  simp only [hagg, ht, hex]
  congr 1; funext yB
  congr 1; funext yT
  congr 1; funext p
  rw [fit_ignoresScale htrend yB (some p.2) s s']
  congr 1; funext tr
  congr 1; funext td
  rw [fitEffects_ignoresScale cfg.compile heff hdef (some p.2) yB s s']

theorem filter_product_fst {α β : Type} (p : α → Bool) (a : List α) (b : List β) :
    (product a b).filter (fun k => p k.1) = product (a.filter p) b := by
  unfold product
  induction a with
  | nil => rfl
  | cons x a ih =>
    rw [List.flatMap_cons, List.filter_append, ih]
    cases h : p x with
    | true =>
      rw [List.filter_cons_of_pos h, List.flatMap_cons]
      congr 1
      rw [List.filter_eq_self]
      intro k hk
      obtain ⟨y, -, rfl⟩ := List.mem_map.1 hk
      exact h
    | false =>
      rw [List.filter_cons_of_neg (by simp [h])]
      have : (b.map fun y => (x, y)).filter (fun k => p k.1) = [] := by
        rw [List.filter_eq_nil_iff]
        intro k hk
        obtain ⟨y, -, rfl⟩ := List.mem_map.1 hk
        simp [h]
      rw [this, List.nil_append]

theorem filter_productAll (t : String) : ∀ ls : List (List String),
    (productAll ls).filter (fun s => t ∉ s) = productAll (ls.map fun l => l.filter (· ≠ t))
  | [] => by simp [productAll]
  | l :: ls => by
    have ih := filter_productAll t ls
    simp only [productAll, List.map_cons]
    rw [← ih]
    induction l with
    | nil => rfl
    | cons a l ihl =>
      rw [List.flatMap_cons, List.filter_append, ihl]
      by_cases ha : a = t
      · subst ha
        rw [List.filter_cons_of_neg (by simp)]
        have : ((productAll ls).map fun s => a :: s).filter (fun s => a ∉ s) = [] := by
          rw [List.filter_eq_nil_iff]
          intro k hk
          obtain ⟨s, -, rfl⟩ := List.mem_map.1 hk
          simp
        rw [this, List.nil_append]
      · rw [List.filter_cons_of_pos (by simpa using ha), List.flatMap_cons]
        congr 1
        rw [List.filter_map]
        congr 1
        apply List.filter_congr
        intro s _
        simp [Ne.symm ha]

/-- **C69**, predicting: the data of the model are the same.  `levels`, `levels'`: the labels of
each index level of `y`, `y'`, in the order in which pandas keeps them; they agree up to the label
`__total`. -/
theorem C69_predict {cfg : HierConfig S (Scale K) τ D K} {y y' : Frame String τ K}
    (h : SameBottom y y') (hn : 2 ≤ y.nlevels) (hnd : y.index.Nodup) (hnd' : y'.index.Nodup)
    {levels levels' : List (List String)} (hll : levels.length + 1 = y.nlevels)
    (hln : ∀ l ∈ levels, l.Nodup)
    (hlev : levels.map (fun l => l.filter (· ≠ "__total"))
      = levels'.map (fun l => l.filter (· ≠ "__total")))
    (m : HierFit S (Scale K) τ D K) (X : Option (Frame String τ K)) {fh : List τ} (hfh : fh.Nodup) :
    hierPredictData cfg m levels y X fh = hierPredictData cfg m levels' y' X fh := by
  have hempty : emptyExog cfg.keep levels y fh = emptyExog cfg.keep levels' y' fh := by
    unfold emptyExog reindexTimeSeries Frame.reindex
    have hl2 := h.levels
    have hn1 : ¬ y.nlevels = 1 := by omega
    have hn2 : ¬ y'.nlevels = 1 := by omega
    simp only [if_neg hn1, if_neg hn2, if_pos hnd, if_pos hnd', Except.map, Except.ok.injEq]
    have hi : ∀ (z : Frame String τ K) (idx : List (List String × τ)),
        (Frame.index ⟨z.nlevels, z.cols, idx.map fun k => (⟨k.1, k.2, fun c =>
          (z.rows.find? fun r => r.sid = k.1 ∧ r.time = k.2).map fun r => r.val c⟩ :
            Row String τ (Option K))⟩) = idx := by
      intro z idx
      simp [Frame.index, Function.comp_def]
    rw [hi, hi, ← h.levels]
    have hlens : ∀ {ls : List (List String)} {u : List String}, u ∈ productAll ls →
        u.length = ls.length := by
      intro ls
      induction ls with
      | nil => intro u hu; simp [productAll] at hu; simp [hu]
      | cons l ls ih =>
        intro u hu
        simp only [productAll, List.mem_flatMap, List.mem_map] at hu
        obtain ⟨a, -, v, hv, rfl⟩ := hu
        simp [ih hv]
    have hbot : ∀ (ls : List (List String)), bottomRows (Frame.ofMultiIndex (K := K) y.nlevels
        (product (productAll ls) fh)) = (product (productAll
          (ls.map fun l => l.filter (· ≠ "__total"))) fh).map
            fun k => ⟨k.1, k.2, fun _ => 0⟩ := by
      intro ls
      unfold bottomRows Frame.ofMultiIndex
      simp only
      rw [List.filter_map, ← filter_productAll, ← filter_product_fst]
      rfl
    refine aggregate_congr cfg.keep ?_ rfl rfl ?_ ?_ ?_
    · show y.nlevels ≠ 1
      omega
    · intro r hr
      unfold Frame.ofMultiIndex at hr
      obtain ⟨k, hk, rfl⟩ := List.mem_map.1 hr
      show k.1.length + 1 = y.nlevels
      rw [hlens (mem_product.1 hk).1, hll]
    · rw [hbot, hbot, hlev]
    · rw [hbot, List.map_map]
      show (List.map (fun k : List String × τ => k) _).Nodup
      rw [List.map_id']
      refine nodup_product (nodup_productAll fun l hl => ?_) hfh
      obtain ⟨l', hl', rfl⟩ := List.mem_map.1 hl
      exact (hln l' hl').sublist List.filter_sublist
  have hpe : predictExog cfg.keep levels y X fh = predictExog cfg.keep levels' y' X fh := by
    unfold predictExog
    rw [hempty]
  unfold hierPredictData
  rw [hpe]

/-- **C69**, forecasts: for the same draws of the observation site the sample forecasts — hence the
point forecasts, quantiles and aggregates computed from them — are the same. -/
theorem C69_samples {y y' : Frame String τ K} (h : SameBottom y y') (hn : 2 ≤ y.nlevels)
    (hw : y.WF) (hnd : y.index.Nodup) {user : Option (Scale K)} {s s' : Scale K}
    {ys ys' : Frame String τ K}
    (h1 : fitTarget false user y = .ok (s, ys)) (h2 : fitTarget false user y' = .ok (s', ys'))
    (keep : List String → Bool) (obs : Tensor K) (fh : List τ) :
    predictSamplesHier keep
      ⟨y.nlevels, (aggregate keep ys).index.map Prod.fst, true, false, s⟩ obs fh
    = predictSamplesHier keep
      ⟨y'.nlevels, (aggregate keep ys').index.map Prod.fst, true, false, s'⟩ obs fh := by
  obtain ⟨hsb, hs, hs', hlv, hidx, hidx'⟩ := scale_sameBottom h (by omega) h1 h2
  have hw' : ys.WF := by
    intro r hr
    have : (r.sid, r.time) ∈ y.index := hidx ▸ List.mem_map.2 ⟨r, hr, rfl⟩
    obtain ⟨r', hr', he⟩ := List.mem_map.1 this
    rw [hlv, ← hw r' hr', (Prod.mk.inj he).1]
  have hagg : aggregate keep ys = aggregate keep ys' := by
    refine aggregate_congr keep (by omega) hsb.levels hsb.cols hw' hsb.rows ?_
    have : ys.index.Nodup := hidx ▸ hnd
    exact this.sublist (List.Sublist.map _ List.filter_sublist)
  rw [← hagg, ← h.levels]
  unfold predictSamplesHier
  congr 1
  unfold predictSamples
  cases obs.shape with
  | nil => rfl
  | cons n tl =>
  simp only [pure_bind]
  congr 1; funext d
  cases hp : periodindexToMultiindex (K := K)
      ⟨y.nlevels, (aggregate keep ys).index.map Prod.fst, true, false, s⟩ fh with
  | error e =>
    have hp' : periodindexToMultiindex (K := K)
      ⟨y.nlevels, (aggregate keep ys).index.map Prod.fst, true, false, s'⟩ fh = .error e := hp
    rw [hp']
    rfl
  | ok idx =>
    have hp' : periodindexToMultiindex (K := K)
      ⟨y.nlevels, (aggregate keep ys).index.map Prod.fst, true, false, s'⟩ fh = .ok idx := hp
    rw [hp']
    simp only [bind, Except.bind]
    cases hg : frameOfMatrix y.nlevels d.data (d.shape.headD 0) n idx with
    | error e => rfl
    | ok g =>
      have hkey : rowScales s (sortIndex g) = rowScales s' (sortIndex g) := by
        refine rowScales_sameBottom h (by omega) hs hs' fun r hr => ?_
        have hr := (sortIndex_perm g).mem_iff.1 hr
        have hsid : ∃ t, (r.sid, t) ∈ idx := by
          unfold frameOfMatrix at hg
          split at hg
          · cases hg
            simp only at hr
            obtain ⟨i, hi, rfl⟩ := List.getElem_of_mem hr
            simp only [List.getElem_zipWith]
            exact ⟨_, List.getElem_mem _⟩
          · cases hg
        obtain ⟨t, ht⟩ := hsid
        unfold periodindexToMultiindex at hp
        rw [if_neg (by show y.nlevels ≠ 1; omega)] at hp
        have hmem : r.sid ∈ (aggregate keep ys).index.map Prod.fst ∧
            r.sid.getLast? ≠ some "__total" := by
          split at hp
          · cases hp
          · rename_i a l hu
            cases hp
            have h3 := (mem_product.1 ht).1
            rw [← hu] at h3
            simp only [filterSeriesTuples, if_true] at h3
            obtain ⟨h4, h5⟩ := List.mem_filter.1 h3
            exact ⟨mem_unique.1 h4, of_decide_eq_true h5⟩
        obtain ⟨hm1, hm2⟩ := hmem
        obtain ⟨k, hk, hke⟩ := List.mem_map.1 hm1
        obtain ⟨r1, hr1, rfl⟩ := List.mem_map.1 hk
        simp only at hke
        rw [aggregate_eq keep (by omega)] at hr1
        have hr1 := (sortIndex_perm _).mem_iff.1 hr1
        rcases List.mem_append.1 hr1 with hr1 | hr1
        · obtain ⟨h6, h7⟩ := List.mem_filter.1 hr1
          have : (r1.sid, r1.time) ∈ y.index := hidx ▸ List.mem_map.2 ⟨r1, h6, rfl⟩
          obtain ⟨r2, hr2, he2⟩ := List.mem_map.1 this
          exact ⟨r2, hr2, (Prod.mk.inj he2).1.trans hke, by simpa [hke] using h7⟩
        · exfalso
          obtain ⟨i, hi, hr1⟩ := List.mem_flatMap.1 (List.mem_of_mem_filter hr1)
          rw [List.mem_range] at hi
          unfold aggLevel at hr1
          obtain ⟨g', -, rfl⟩ := List.mem_map.1 hr1
          apply hm2
          rw [← hke]
          simp only [totalLabel, List.getLast?_append, List.getLast?_replicate]
          rw [if_neg (by omega)]
          rfl
      show invScaleY false s (sortIndex g) = invScaleY false s' (sortIndex g)
      unfold invScaleY
      simp only [Bool.false_eq_true, if_false, hkey]

/-- **C69** for a target to which the aggregates have been added: the hypotheses of the theorems
above are met, provided the times are increasing. -/
theorem C69_aggregated (keep : List String → Bool) {y : Frame String τ K} (hn : 2 ≤ y.nlevels)
    (hw : y.WF) (hres : NoReserved y) (hnd : y.index.Nodup) {ts : List τ} (hb : Balanced y ts)
    (hts : ts.Pairwise (· < ·)) :
    SameBottom y (aggregate keep y) ∧ (aggregate keep y).WF ∧ (aggregate keep y).index.Nodup ∧
      Balanced (aggregate keep y) ts := by
  have hself : bottomRows y = y.rows := noTotal_eq_self hres
  have hnd' : ((bottomRows y).map fun r => (r.sid, r.time)).Nodup := by rw [hself]; exact hnd
  obtain ⟨hwA, hlv, hco⟩ := aggregate_wf keep hw
  have hndA := aggregate_nodup keep (f := y) (by omega) hw hnd'
  refine ⟨⟨hlv.symm, hco.symm, (bottomRows_aggregate keep (by omega)).symm⟩, hwA, hndA, hb.1, ?_⟩
  intro r hr
  have hsorted := (C10_aggregate_coherent keep hw (by omega) hres).2.2
  rw [Frame.index, List.pairwise_map] at hsorted
  have hlt : ((aggregate keep y).rows.filter fun r' => r'.sid = r.sid).Pairwise
      fun a b => a.time < b.time := by
    rw [List.pairwise_filter]
    have hne : (aggregate keep y).rows.Pairwise fun a b => (a.sid, a.time) ≠ (b.sid, b.time) :=
      List.pairwise_map.1 hndA
    refine (hsorted.and hne).imp fun {a b} hab ha hb => ?_
    have ha : a.sid = r.sid := by simpa using ha
    have hb : b.sid = r.sid := by simpa using hb
    have hab1 := hab.1
    rw [Prod.Lex.toLex_le_toLex] at hab1
    rcases hab1 with h | h
    · simp only [ha, hb] at h
      exact absurd h (lt_irrefl _)
    · refine lt_of_le_of_ne h.2 fun e => hab.2 ?_
      rw [ha, hb, e]
  refine eq_of_sorted_of_mem (List.pairwise_map.2 hlt) hts fun t => ?_
  have hrows : ∀ r, r ∈ (aggregate keep y).rows ↔ r ∈ aggRows keep (y.nlevels - 1) y.rows := by
    intro r
    rw [aggregate_eq keep (by omega), hself]
    exact (sortIndex_perm _).mem_iff
  have hyt : ∀ r0 ∈ y.rows, r0.time ∈ ts := by
    intro r0 hr0
    rw [← hb.2 r0 hr0]
    exact List.mem_map.2 ⟨r0, List.mem_filter.2 ⟨hr0, by simp⟩, rfl⟩
  have hty : ∀ r0 ∈ y.rows, ∀ t ∈ ts, ∃ r1 ∈ y.rows, r1.sid = r0.sid ∧ r1.time = t := by
    intro r0 hr0 t ht
    rw [← hb.2 r0 hr0] at ht
    obtain ⟨r1, hr1, e⟩ := List.mem_map.1 ht
    obtain ⟨h1, h2⟩ := List.mem_filter.1 hr1
    exact ⟨r1, h1, by simpa using h2, e⟩
  constructor
  · intro ht
    obtain ⟨r', hr', rfl⟩ := List.mem_map.1 ht
    have := (hrows r').1 (List.mem_of_mem_filter hr')
    rcases List.mem_append.1 this with h | h
    · exact hyt r' h
    · obtain ⟨i, -, h⟩ := List.mem_flatMap.1 (List.mem_of_mem_filter h)
      unfold aggLevel at h
      obtain ⟨g, hg, rfl⟩ := List.mem_map.1 h
      obtain ⟨r0, hr0, rfl⟩ := List.mem_map.1 (mem_unique.1 hg)
      exact hyt r0 hr0
  · intro ht
    have : ∃ r' ∈ (aggregate keep y).rows, r'.sid = r.sid ∧ r'.time = t := by
      rcases List.mem_append.1 ((hrows r).1 hr) with h | h
      · obtain ⟨r1, hr1, e1, e2⟩ := hty r h t ht
        exact ⟨r1, (hrows r1).2 (List.mem_append_left _ hr1), e1, e2⟩
      · obtain ⟨h, hk⟩ := List.mem_filter.1 h
        obtain ⟨i, hi, h⟩ := List.mem_flatMap.1 h
        unfold aggLevel at h
        obtain ⟨g, hg, rfl⟩ := List.mem_map.1 h
        obtain ⟨r0, hr0, rfl⟩ := List.mem_map.1 (mem_unique.1 hg)
        obtain ⟨r1, hr1, e1, e2⟩ := hty r0 hr0 t ht
        refine ⟨⟨r0.sid.take i ++ List.replicate (y.nlevels - 1 - i) totalLabel, t, fun c =>
          ((y.rows.filter fun r => (r.sid.take i, r.time) = (r0.sid.take i, t)).map
            fun r => r.val c).sum⟩, (hrows _).2 (List.mem_append_right _ (List.mem_filter.2
              ⟨List.mem_flatMap.2 ⟨i, hi, ?_⟩, hk⟩)), rfl, rfl⟩
        unfold aggLevel
        refine List.mem_map.2 ⟨(r0.sid.take i, t), mem_unique.2 (List.mem_map.2 ⟨r1, hr1, ?_⟩), rfl⟩
        rw [e1, e2]
    obtain ⟨r', hr', e1, e2⟩ := this
    exact List.mem_map.2 ⟨r', List.mem_filter.2 ⟨hr', by simpa using e1⟩, e2⟩

/-- **C69**: the built-in trends and the linear effect (the default effect) do not look at the
scale. -/
theorem C69_builtin [FloorSemiring K] (days : τ → K)
    (suggest : List K → Tensor K → PyM (List K × List K))
    (predict : Bool → Nat → EffectCall (Tensor K) K) (p : PiecewiseParams K τ) (mode : String) :
    (piecewiseClass (V := K) days suggest predict p).toHooks.IgnoresScale ∧
    (flatClass (K := K) (τ := τ) (V := K)).toHooks.IgnoresScale ∧
    (linearClass (K := K) (τ := τ) (S := S) mode).toHooks.IgnoresScale :=
  ⟨fun _ _ _ _ _ => rfl, fun _ _ _ _ _ => rfl, fun _ _ _ _ _ => rfl⟩

end

/-! Example: two series `a`, `b` at times 1, 2; the second target has them in the other order and
has the totals. -/

def exY69 : Frame String Int ℚ := ⟨2, ["y"], [⟨["b"], 1, fun _ => 3⟩, ⟨["b"], 2, fun _ => 6⟩,
  ⟨["a"], 1, fun _ => 10⟩, ⟨["a"], 2, fun _ => 20⟩]⟩

example : (aggregate (fun _ => true) exY69).rows.map (fun r => (r.sid, r.time, r.val "y"))
    = [(["__total"], 1, 13), (["__total"], 2, 26), (["a"], 1, 10), (["a"], 2, 20),
       (["b"], 1, 3), (["b"], 2, 6)] := by decide +kernel

theorem exY69_same : SameBottom exY69 (aggregate (fun _ => true) exY69) ∧
    (aggregate (fun _ => true) exY69).WF ∧ (aggregate (fun _ => true) exY69).index.Nodup ∧
    Balanced (aggregate (fun _ => true) exY69) [1, 2] :=
  C69_aggregated (ts := [1, 2]) _ (by decide) (by unfold Frame.WF; decide) (by unfold NoReserved; decide) (by decide)
    ⟨by decide, by decide⟩ (by decide)

/-- The hypotheses of `C69_fit`, `C69_samples` are met: both targets are accepted; the scales are
different tables. -/
example : ((fitTarget false none exY69).toOption.map Prod.fst)
    = some (.table [(["b"], 6), (["a"], 20)]) := by decide +kernel
example : ((fitTarget false none (aggregate (fun _ => true) exY69)).toOption.map Prod.fst)
    = some (.table [(["__total"], 26), (["a"], 20), (["b"], 6)]) := by decide +kernel

end PV
