import Verif.Props.PanelPosterior
import Verif.Props.UsualWorks
import Verif.Lemmas.Aggregate
import Verif.Props.ObsLayout
import Verif.Lemmas.SortedPanel
import Verif.Spec.RegularPanel

/-!
# C113: regular panels can be fitted and forecast
-/

set_option linter.unusedSectionVars false

namespace PV
open Tensor

section
variable {τ V : Type} [LinearOrder τ]

/-- The dates of a regular panel in order of time, in order of first appearance. -/
theorem regular_dates {rows : List (Row String τ V)}
    (hs : rows.Pairwise fun a b => a.sid = b.sid → a.time < b.time)
    (hreg : ∀ r ∈ rows, ∀ r' ∈ rows, ∃ q ∈ rows, q.sid = r.sid ∧ q.time = r'.time) :
    (unique (rows.map Row.time)).Pairwise (· < ·) := by
  suffices H : ∀ l m : List (Row String τ V), rows = l ++ m →
      (unique (l.map Row.time)).Pairwise (· < ·) from H rows [] (by simp)
  intro l
  induction l using List.reverseRecOn with
  | nil => intro m _; exact List.Pairwise.nil
  | append_singleton l r ih =>
    intro m hm
    have ih := ih (r :: m) (by rw [hm]; simp)
    rw [List.map_append, List.map_singleton, unique_snoc]
    split
    · exact ih
    rename_i hnew
    rw [List.pairwise_append]
    refine ⟨ih, by simp, ?_⟩
    intro t ht t' ht'
    rw [List.mem_singleton] at ht'
    subst ht'
    obtain ⟨r', hr', rfl⟩ := List.mem_map.1 (mem_unique.1 ht)
    by_contra hlt
    have hne : r'.time ≠ r.time := fun h => hnew (List.mem_map.2 ⟨r', hr', h⟩)
    have hlt : r.time < r'.time := lt_of_le_of_ne (not_lt.1 hlt) hne.symm
    obtain ⟨q, hq, hqs, hqt⟩ := hreg r' (by rw [hm]; simp [hr']) r (by rw [hm]; simp)
    -- `q` is before `r'`
    rw [hm, List.append_assoc] at hq hs
    rcases List.mem_append.1 hq with h | h
    · exact hnew (List.mem_map.2 ⟨q, h, hqt⟩)
    · have := (List.pairwise_append.1 hs).2.2 r' hr' q h hqs.symm
      rw [hqt] at this
      exact lt_asymm hlt this

/-- A sorted regular table is a panel. -/
theorem panel_of_sorted {f : Frame String τ V} (hlv : f.nlevels ≠ 1)
    (hs : f.rows.Pairwise fun a b => toLex (a.sid, a.time) < toLex (b.sid, b.time))
    {ts : List τ} (hts : ts.Pairwise (· < ·)) (hne : ts ≠ []) (hrows : f.rows ≠ [])
    (hcov : ∀ s ∈ f.series, ∀ t ∈ ts, ∃ r ∈ f.rows, r.sid = s ∧ r.time = t) :
    PanelIn f f.series ts where
  panel := hlv
  someSeries := series_ne_nil hrows
  series := fun i s => seriesAt_iff.symm
  grouped := by
    intro i j k a b c hij hjk ha hb hc hac
    have key : ∀ {i j : Nat} {a b : Row String τ V}, i ≤ j → f.rows[i]? = some a → f.rows[j]? = some b →
        a.sid ≤ b.sid := by
      intro i j a b hij ha hb
      rcases hij.lt_or_eq with h | rfl
      · obtain ⟨h1, rfl⟩ := List.getElem?_eq_some_iff.1 ha
        obtain ⟨h2, rfl⟩ := List.getElem?_eq_some_iff.1 hb
        have := List.pairwise_iff_getElem.1 hs i j h1 h2 h
        rcases Prod.Lex.lt_iff.1 this with h | ⟨h, -⟩
        · exact le_of_lt h
        · exact le_of_eq h
      · rw [ha] at hb; cases hb; exact le_rfl
    have h1 := key (by omega) ha hb
    have h2 := key (by omega) hb hc
    rw [← hac] at h2
    exact le_antisymm h2 h1
  sorted := by
    refine List.Pairwise.imp (fun {a b} h => ?_) hs
    intro hab
    rcases Prod.Lex.lt_iff.1 h with h | ⟨-, h⟩
    · exact absurd hab (ne_of_lt h)
    · exact h
  horizon := hts
  someDate := hne
  covers := hcov

end

section
variable {τ K : Type} [LinearOrder τ] [Field K] [LinearOrder K] [IsStrictOrderedRing K]

theorem keys_nodup {f : Frame String τ K} (h : TimeSorted f) :
    (f.rows.map fun r => (r.sid, r.time)).Nodup := by
  refine List.pairwise_map.2 (List.Pairwise.imp (fun {a b} hab he => ?_) h)
  have h1 : a.sid = b.sid := congrArg Prod.fst he
  have h2 : a.time = b.time := congrArg Prod.snd he
  exact (hab h1).ne h2

/-- What the model is fitted on: the series that are not aggregates, in lexicographic order. -/
structure BottomPanel (y yB : Frame String τ K) (ts : List τ) : Prop where
  panel : PanelIn yB yB.series ts
  series : SeriesOf y yB.series
  rows : yB.rows ≠ []
  cols : yB.cols = y.cols
  nlevels : yB.nlevels = y.nlevels
  dates : unique yB.times = ts
  datesY : unique y.times = ts
  two : 2 ≤ ts.length
  given : ∀ r ∈ yB.rows, r ∈ y.rows ∧ "__total" ∉ r.sid

theorem bottom_panel (keep : List String → Bool) {y : Frame String τ K} (h : RegularPanel y) :
    ∃ yB ts, locBottom (aggregate keep y) = .ok yB ∧ yB = (aggregate keep y).bottomOnly ∧
      BottomPanel y yB ts := by
  have hn : y.nlevels ≠ 1 := by have := h.levels; omega
  obtain ⟨hw, hlv, hcols⟩ := aggregate_wf keep h.wf
  have hperm := bottomRows_aggregate keep hn (f := y)
  have hbot := aggregate_bottom keep h.levels (y := y)
  set yB := (aggregate keep y).bottomOnly with hyB
  have hrows : yB.rows = bottomRows (aggregate keep y) := by
    rw [hyB]
    unfold Frame.bottomOnly bottomRows
    refine List.filter_congr fun r hr => ?_
    exact decide_eq_decide.2 (hbot r hr)
  have hmem : ∀ r, r ∈ yB.rows ↔ r ∈ y.rows ∧ "__total" ∉ r.sid := by
    intro r
    rw [hrows, hperm.mem_iff, bottomRows, List.mem_filter]
    simp
  obtain ⟨r0, hr0, hr0t⟩ := h.bottom
  have hr0B : r0 ∈ yB.rows := (hmem r0).2 ⟨hr0, hr0t⟩
  have hloc : locBottom (aggregate keep y) = .ok yB := by
    refine C52_drops_aggregates hw (by rw [hlv]; exact h.levels) ?_
    have := List.mem_filter.1 hr0B
    exact ⟨r0, this.1, by simpa using this.2⟩
  have hsorted : yB.rows.Pairwise fun a b => toLex (a.sid, a.time) < toLex (b.sid, b.time) := by
    have h1 : yB.rows.Pairwise fun a b => toLex (a.sid, a.time) ≤ toLex (b.sid, b.time) := by
      rw [hrows, bottomRows, aggregate_eq keep hn]
      exact (sortIndex_sorted _).filter _
    have h2 : (yB.rows.map fun r => (r.sid, r.time)).Nodup := by
      rw [hrows, (hperm.map _).nodup_iff]
      exact (keys_nodup h.ordered).sublist (List.filter_sublist.map _)
    have h2 := List.pairwise_map.1 h2
    exact (h1.and h2).imp fun ⟨ha, hb⟩ => lt_of_le_of_ne ha fun he => hb (toLex.injective he)
  have hregB : ∀ r ∈ yB.rows, ∀ r' ∈ y.rows, ∃ q ∈ yB.rows, q.sid = r.sid ∧ q.time = r'.time := by
    intro r hr r' hr'
    obtain ⟨hr1, hr2⟩ := (hmem r).1 hr
    obtain ⟨q, hq, h1, h2⟩ := h.regular r hr1 r' hr'
    exact ⟨q, (hmem q).2 ⟨hq, by rw [h1]; exact hr2⟩, h1, h2⟩
  have hts := regular_dates h.ordered h.regular
  set ts := unique y.times with htsd
  have htimes : ∀ t, t ∈ ts ↔ ∃ r ∈ y.rows, r.time = t := by
    intro t
    rw [htsd, mem_unique, Frame.times, List.mem_map]
  obtain ⟨ra, hra, rb, hrb, hab⟩ := h.twoDates
  have hp : PanelIn yB yB.series ts := by
    refine panel_of_sorted (by show (aggregate keep y).nlevels ≠ 1; rw [hlv]; exact hn) hsorted hts
      (List.ne_nil_of_mem ((htimes _).2 ⟨ra, hra, rfl⟩)) (List.ne_nil_of_mem hr0B) ?_
    intro s hs t ht
    obtain ⟨r, hr, rfl⟩ := mem_series.1 hs
    obtain ⟨r', hr', rfl⟩ := (htimes t).1 ht
    exact hregB r hr r' hr'
  refine ⟨yB, ts, hloc, rfl, hp, ⟨?_, ?_⟩, List.ne_nil_of_mem hr0B, hcols, hlv, ?_, rfl, ?_,
    fun r hr => (hmem r).1 hr⟩
  · -- sorted labels
    unfold Frame.series
    have hle : (yB.rows.map Row.sid).Pairwise (· ≤ ·) := by
      refine List.pairwise_map.2 (hsorted.imp fun {a b} h => ?_)
      rcases Prod.Lex.lt_iff.1 h with h | ⟨h, -⟩
      · exact le_of_lt h
      · exact le_of_eq h
    exact unique_sorted hle
  · intro s
    rw [mem_series]
    constructor
    · rintro ⟨r, hr, rfl⟩
      exact ⟨((hmem r).1 hr).2, r, ((hmem r).1 hr).1, rfl⟩
    · rintro ⟨h1, r, hr, rfl⟩
      exact ⟨r, (hmem r).2 ⟨hr, h1⟩, rfl⟩
  · have hB := regular_dates hp.sorted fun r hr r' hr' => hregB r hr r' ((hmem r').1 hr').1
    refine List.Perm.eq_of_pairwise (fun a b _ _ h1 h2 => absurd h2 (lt_asymm h1)) hB hts ?_
    rw [List.perm_ext_iff_of_nodup (nodup_unique _) (nodup_unique _)]
    intro t
    rw [mem_unique, htimes, Frame.times, List.mem_map]
    constructor
    · rintro ⟨r, hr, rfl⟩
      exact ⟨r, ((hmem r).1 hr).1, rfl⟩
    · rintro ⟨r, hr, rfl⟩
      obtain ⟨q, hq, -, h2⟩ := hregB r0 hr0B r hr
      exact ⟨q, hq, h2⟩
  · have h1 := (htimes _).2 ⟨ra, hra, rfl⟩
    have h2 := (htimes _).2 ⟨rb, hrb, rfl⟩
    match ts, h1, h2 with
    | [], h1, _ => cases h1
    | [t], h1, h2 =>
      rw [List.mem_singleton] at h1 h2
      exact absurd (h1.trans h2.symm) hab.ne
    | _ :: _ :: _, _, _ => simp


/-! ## The exogenous variables -/

/-- The columns of the given table. -/
def givenCols (X : Option (Frame String τ K)) : List String := (X.map Frame.cols).getD []

/-- No table, a table without columns, or a regular table. -/
def GivenExog (X : Option (Frame String τ K)) (ss : List (List String)) (ts : List τ) : Prop :=
  givenCols X = [] ∨ ∃ x, X = some x ∧ RegularExog x ss ts

theorem exog_bottom {X : Frame String τ K} {ss : List (List String)} {ts : List τ}
    (h : RegularExog X ss ts) : locBottom X = .ok X.bottomOnly := by
  refine C52_drops_aggregates h.wf h.levels ?_
  obtain ⟨s, hs⟩ := List.exists_mem_of_ne_nil _ h.panel.someSeries
  obtain ⟨t, ht⟩ := List.exists_mem_of_ne_nil _ h.panel.someDate
  obtain ⟨r, hr, -⟩ := h.panel.covers s hs t ht
  obtain ⟨h1, h2⟩ := List.mem_filter.1 hr
  exact ⟨r, h1, by simpa using h2⟩

theorem panelIn_rows {x : Frame String τ K} {ss : List (List String)} {ts : List τ}
    (h : PanelIn x ss ts) : x.rows ≠ [] := by
  obtain ⟨s, hs⟩ := List.exists_mem_of_ne_nil _ h.someSeries
  obtain ⟨t, ht⟩ := List.exists_mem_of_ne_nil _ h.someDate
  obtain ⟨r, hr, -⟩ := h.covers s hs t ht
  exact List.ne_nil_of_mem hr

theorem expandTransform_runs {st : ExpandState} (hsk : st.skip = false) {x : Frame String τ K}
    (hlv : x.nlevels ≠ 1) (hsub : ∀ c ∈ st.matched, c ∈ x.cols) :
    ∃ z, expandTransform st x = .ok z := by
  unfold expandTransform
  simp only [hsk, Bool.false_eq_true, if_false]
  rw [if_neg hlv, if_neg (by rintro ⟨-, h⟩; exact h hsub)]
  have hx : x = x.withVals x.cols fun r => r.val := by
    unfold Frame.withVals
    simp
  have hx1 := fold_setCol x (product st.matched x.series) x.cols fun r => r.val
  rw [← hx] at hx1
  rw [hx1, fold_setLoc]
  rw [if_pos]
  · exact ⟨_, rfl⟩
  · intro c hc
    exact (foldl_cols (product st.matched x.series) x.cols).1.subset (hsub c hc)

theorem compileAll_runs {compile : String → PyM (String → Bool)} : ∀ {ps : List String},
    (∀ c ∈ ps, ∃ q, compile c = .ok q) → ∃ ms, compileAll compile ps = .ok ms
  | [], _ => ⟨[], rfl⟩
  | c :: ps, h => by
    obtain ⟨q, hq⟩ := h c (by simp)
    obtain ⟨ms, hms⟩ := compileAll_runs (ps := ps) fun c hc => h c (by simp [hc])
    simp only [compileAll, bind, Except.bind, hq, hms]
    exact ⟨_, rfl⟩

/-- The expansion of the columns of a regular table can be fitted. -/
theorem fitExpand_runs {compile : String → PyM (String → Bool)} {order : List String → List String}
    {shared : List String} (hord : ∀ l, (order l).Perm l) {x : Frame String τ K}
    (hcols : x.cols ≠ []) (hlv : x.nlevels ≠ 1)
    (hcomp : ∀ c ∈ x.cols, c ∉ shared → ∃ q, compile c = .ok q) :
    ∃ st z, fitExpand compile order shared x = .ok (some st, z) ∧ st.skip = false ∧
      (∀ c ∈ st.matched, c ∈ x.cols) ∧ expandTransform st x = .ok z := by
  obtain ⟨ms, hms⟩ := compileAll_runs (compile := compile) (ps := nonShared x.cols shared) (by
    intro c hc
    have hc := (List.perm_insertionSort _ _).mem_iff.1 hc
    obtain ⟨h1, h2⟩ := List.mem_filter.1 (mem_unique.1 hc)
    exact hcomp c h1 (by simpa using h2))
  have hsk : (x.nlevels == 1) = false := by simpa using hlv
  have hsub : ∀ c ∈ order (x.cols.filter fun c => ms.any fun m => m c), c ∈ x.cols := fun c hc =>
    List.mem_of_mem_filter ((hord _).mem_iff.1 hc)
  obtain ⟨z, hz⟩ := expandTransform_runs (st := ⟨x.nlevels == 1, _⟩) hsk hlv hsub
  refine ⟨_, z, ?_, hsk, hsub, hz⟩
  unfold fitExpand expandFit
  rw [if_neg hcols]
  simp only [hms, bind, Except.bind, pure, Except.pure, hz]

/-- What the effects see in `fit`: without columns no expansion and no columns; else the table with
expanded columns. -/
theorem hierExog_runs {S Sc D : Type} {cfg : HierConfig S Sc τ D K} (hff : cfg.fitFeatures = .ok)
    (hord : ∀ l, (cfg.order l).Perm l) {y yB : Frame String τ K} {ts : List τ} (hy : RegularPanel y)
    (hloc : locBottom (aggregate cfg.keep y) = .ok yB) (hyB : yB = (aggregate cfg.keep y).bottomOnly)
    (hB : BottomPanel y yB ts) {X : Option (Frame String τ K)} (hX : GivenExog X yB.series ts)
    (hcomp : ∀ c ∈ givenCols X, c ∉ cfg.shared → ∃ q, cfg.compile c = .ok q) :
    ∃ ex x, hierExog cfg (aggregate cfg.keep y) X = .ok (ex, x) ∧ PanelIn x yB.series ts ∧
      ((givenCols X = [] ∧ ex = none ∧ x.cols = []) ∨
        ∃ X0 st, X = some X0 ∧ RegularExog X0 yB.series ts ∧ ex = some st ∧ st.skip = false ∧
          (∀ c ∈ st.matched, c ∈ X0.cols) ∧ expandTransform st X0.bottomOnly = .ok x) := by
  unfold hierExog
  rw [hff]
  by_cases h0 : givenCols X = []
  · have he : exogOr X (Frame.ofMultiIndex (aggregate cfg.keep y).nlevels (aggregate cfg.keep y).index)
        = Frame.ofMultiIndex (aggregate cfg.keep y).nlevels (aggregate cfg.keep y).index := by
      unfold exogOr
      cases X with
      | none => rfl
      | some x =>
        have : x.cols = [] := h0
        simp [this]
    rw [he]
    set F : Frame String τ K := Frame.ofMultiIndex (aggregate cfg.keep y).nlevels (aggregate cfg.keep y).index
      with hF
    obtain ⟨hw, hlv, -⟩ := aggregate_wf cfg.keep hy.wf
    have hidx : F.bottomOnly.index = yB.index := by
      rw [hyB, hF]
      unfold Frame.bottomOnly Frame.index Frame.ofMultiIndex
      simp only [Frame.index, List.map_map, List.filter_map]
      rfl
    have hp : PanelIn F.bottomOnly yB.series ts := hB.panel.congr hidx (by
      show (aggregate cfg.keep y).nlevels = _
      rw [hB.nlevels, hlv])
    have hl : locBottom F = .ok F.bottomOnly := by
      refine C52_drops_aggregates ?_ (by show 2 ≤ (aggregate cfg.keep y).nlevels; rw [hlv]; exact hy.levels) ?_
      · intro r hr
        obtain ⟨k, hk, rfl⟩ := List.mem_map.1 hr
        obtain ⟨r', hr', rfl⟩ := List.mem_map.1 hk
        exact hw r' hr'
      · obtain ⟨r, hr⟩ := List.exists_mem_of_ne_nil _ (panelIn_rows hp)
        obtain ⟨h1, h2⟩ := List.mem_filter.1 hr
        exact ⟨r, h1, by simpa using h2⟩
    refine ⟨none, F.bottomOnly, ?_, hp, .inl ⟨h0, rfl, rfl⟩⟩
    simp only [hl, bind, Except.bind, fitExpand]
    exact if_pos rfl
  · rcases hX with h | ⟨X0, rfl, hX0⟩
    · exact absurd h h0
    have he : exogOr (some X0) (Frame.ofMultiIndex (aggregate cfg.keep y).nlevels
        (aggregate cfg.keep y).index) = X0 := if_neg hX0.columns
    rw [he]
    obtain ⟨st, z, h1, h2, h3, h4⟩ := fitExpand_runs (compile := cfg.compile) (shared := cfg.shared) hord
      (x := X0.bottomOnly) hX0.columns hX0.panel.panel hcomp
    refine ⟨some st, z, ?_, ?_, .inr ⟨X0, st, rfl, hX0, rfl, h2, h3, h4⟩⟩
    · simp only [exog_bottom hX0, bind, Except.bind, h1]
    · obtain ⟨b1, b2⟩ := expandTransform_index h4
      exact hX0.panel.congr b1 b2

/-- The array of a regular table. -/
theorem panel_array {x : Frame String τ K} {ss : List (List String)} {fh : List τ}
    (hx : PanelIn x ss fh) {cs : List String} (hcs : cs ≠ []) :
    ∃ d, ({ x.filterTimes fh with cols := cs } : Frame String τ K).seriesToTensorOrArray = .ok d := by
  set f : Frame String τ K := { x.filterTimes fh with cols := cs } with hf
  have hss := hx.series_eq
  have hlen : ∀ s ∈ f.series, (f.rowsOf s).length = fh.length := by
    intro s hs
    have hs' : s ∈ ss := by
      obtain ⟨r, hr, rfl⟩ := mem_series.1 hs
      rw [← hss]
      exact mem_series.2 ⟨r, List.mem_of_mem_filter hr, rfl⟩
    have : (f.rowsOf s).map Row.time = fh := by
      show ((x.filterTimes fh).rowsOf s).map Row.time = fh
      rw [rowsOf_filterTimes x fh s]
      apply times_filtered (rowsOf_sorted hx.sorted s) hx.horizon
      intro t ht
      obtain ⟨r', hr', hsid, htm⟩ := hx.covers s hs' t ht
      exact ⟨r', List.mem_filter.2 ⟨hr', by simp [hsid]⟩, htm⟩
    rw [← this, List.length_map]
  have hrows : f.rows ≠ [] := by
    obtain ⟨s, hs⟩ := List.exists_mem_of_ne_nil _ hx.someSeries
    obtain ⟨t, ht⟩ := List.exists_mem_of_ne_nil _ hx.someDate
    obtain ⟨r, hr, -, rfl⟩ := hx.covers s hs t ht
    exact List.ne_nil_of_mem (List.mem_filter.2 ⟨hr, by simpa using ht⟩)
  unfold Frame.seriesToTensorOrArray
  rw [if_neg (show f.nlevels ≠ 1 from hx.panel)]
  rcases seriesToTensor_panel (f := f) hx.panel hrows hcs with ⟨T, -, he⟩ | ⟨⟨s, hs, s', hs', hne⟩, -⟩
  · exact ⟨_, he⟩
  · exact absurd ((hlen s hs).trans (hlen s' hs').symm) hne

end
end PV

namespace PV
open Tensor
section
variable {τ : Type} [LinearOrder τ]

/-! ## Trend and effects -/

/-- The trend of a regular panel can be fitted. -/
theorem panel_trend_fits {days : τ → ℝ} (hmono : StrictMono days) {p : PiecewiseParams ℝ τ} {i r : ℝ}
    (hi : p.interval = .scalar i) (hi0 : 0 < i) (hr : p.range = .scalar r) (hr0 : 0 < r)
    (hdt : Starts p) {y : Frame String τ ℝ} {c : String} {ts : List τ}
    (hyc : y.cols = [c]) (hp : PanelIn y y.series ts) (hlv : 2 ≤ y.nlevels) (hu : unique y.times = ts)
    (h2 : 2 ≤ ts.length)
    (hten : ∀ y' : Frame String τ ℝ, y'.nlevels = y.nlevels → y'.cols = y.cols → y'.index = y.index →
      ∃ ya, y'.seriesToTensor = .ok ya) :
    ∃ s, piecewiseFit days suggestLinear p y = .ok s := by
  have hd : HistoryDays days y (ts.map days) :=
    ⟨by rw [← hu]; rfl, by simpa using h2, List.pairwise_map.2 (hp.horizon.imp fun h => hmono h)⟩
  set ds := ts.map days with hds
  obtain ⟨y', hy', hl', hc', hi'⟩ := hdt.detrended y
  have ht' : y'.rows.map Row.time = y.rows.map Row.time := by
    simpa [Frame.index, Function.comp_def] using congrArg (List.map Prod.snd) hi'
  obtain ⟨ya, hya⟩ := hten y' hl' hc' hi'
  have hsug : ∃ s, suggestLinear ((unique (y'.rows.map Row.time)).map fun t => trendTimeOf ds (days t))
      ya = .ok s := by
    rw [ht', show unique (y.rows.map Row.time) = ts from hu]
    have hinc : (ts.map fun t => trendTimeOf ds (days t)).Pairwise (· < ·) := by
      refine List.pairwise_map.2 (hp.horizon.imp fun {a b} h => ?_)
      have hpos : 0 < ds.getLastD 0 - ds.headD 0 := by
        have h3 := hd.increasing
        match ds, hd.two with
        | d :: e :: l, _ =>
          have := (List.pairwise_cons.1 h3).1 _ (getLastD_mem (l := e :: l) (a := d) (by simp))
          have hg : (d :: e :: l).getLastD 0 = (e :: l).getLastD d := by simp only [List.getLastD_cons]
          rw [hg]
          exact sub_pos.2 this
      have hlen : 0 < (ds.length : ℝ) - 1 := by
        have : (2 : ℝ) ≤ ds.length := by exact_mod_cast hd.two
        linarith
      simp only [trendTimeOf]
      have := hmono h
      gcongr
    have hl : 2 ≤ (ts.map fun t => trendTimeOf ds (days t)).length := by simpa using h2
    generalize (ts.map fun t => trendTimeOf ds (days t)) = us at hinc hl
    match us, hl with
    | a :: b :: l, _ =>
      unfold suggestLinear
      have hlast : (a :: b :: l).getLast? = some ((b :: l).getLast (by simp)) := by
        rw [List.getLast?_eq_some_getLast (by simp)]
        simp
      simp only [List.head?_cons, hlast]
      rw [if_neg]
      · exact ⟨_, rfl⟩
      · exact ((List.pairwise_cons.1 hinc).1 _ (List.getLast_mem _)).ne
  obtain ⟨s, hs⟩ := hsug
  have key := (C34_fit_fails (p := p) (n := y.series.length) (.inr ⟨by omega, rfl⟩) hd (by rw [hi]; trivial)
    (by rw [hr]; trivial) (by
      intro k _ v hv
      rw [hi] at hv
      cases hv
      exact hi0) (y' := y') hy' hya hs).2
  cases hf : piecewiseFit days suggestLinear p y with
  | ok s => exact ⟨s, rfl⟩
  | error e =>
    obtain ⟨k, hk, r', limit, hr', hlim, hle⟩ := key.1 ⟨e, hf⟩
    rw [hr] at hr'
    cases hr'
    exfalso
    have h2' : (2 : ℝ) ≤ ds.length := by exact_mod_cast hd.two
    by_cases h1 : r < 1
    · have := hlim.fraction hr0 h1
      have : 0 < limit := by rw [this]; exact mul_pos hr0 (by linarith)
      linarith
    · have := hlim.count (not_lt.1 h1)
      linarith

theorem piecewise_panel_state {days : τ → ℝ} {suggest : List ℝ → Tensor ℝ → PyM (List ℝ × List ℝ)}
    {p : PiecewiseParams ℝ τ} {i r : ℝ} (hi : p.interval = .scalar i) (hr : p.range = .scalar r)
    {y : Frame String τ ℝ} {s : PiecewiseState ℝ τ} (hlv : 1 < y.nlevels)
    (h : piecewiseFit days suggest p y = .ok s) :
    s.series = some y.series ∧ s.time.nSeries = y.series.length ∧ s.cps.length = y.series.length := by
  obtain ⟨tt, cps, y', ya, r', h1, h2, h3, h4, h5, rfl⟩ := piecewiseFit_inv h
  have hns : tt.nSeries = y.series.length := by
    unfold trendTimeFit at h1
    split at h1
    · cases h1
    · simp only at h1
      split at h1
      · cases h1
      · cases h1
        simp [nSeriesOf, hlv]
  rw [hi, hr, hns] at h2
  have hl := changepointsAll_length h2
  simp only [ScalarOr.toList, List.length_zip, List.length_replicate, Nat.min_self] at hl
  exact ⟨by simp [hlv], hns, hl⟩

/-- The trend of a panel can be computed for all parameters of the right sizes. -/
theorem panel_trend_runs {days : τ → ℝ} {suggest : List ℝ → Tensor ℝ → PyM (List ℝ × List ℝ)}
    {p : PiecewiseParams ℝ τ}
    {e : EffectObj (Option (PiecewiseState ℝ τ)) (Frame String τ ℝ) (Scale ℝ) τ ℝ (Tensor ℝ) ℝ}
    (hc : e.cls = piecewiseClass days suggest piecewisePredict p)
    {st : PiecewiseState ℝ τ} (hst : e.st.2 = some st) {ss : List (List String)} (hss : ss ≠ [])
    (hser : st.series = some ss) (hcps : st.cps.length = ss.length)
    (hns : st.time.nSeries = ss.length) (hsq : ss.length ≠ 1 ∨ p.squeeze = false)
    {x : Frame String τ ℝ} {fh : List τ} (hf : fh.Nodup) {d : Transformed (Tensor ℝ)}
    (ht : e.transform (some x) fh = .ok d) {θ : SiteEnv ℝ} (hθ : PanelSites st.cps θ) :
    ∃ v, e.cls.call e.st θ d [] = .ok v ∧ v.shape = [ss.length, fh.length, 1] ∧ v.WF := by
  obtain ⟨cols, m, rfl, hm⟩ := trend_transform_data (by rw [hc]; rfl) (by rw [hc]; rfl) ht
  rw [hc, hst] at hm
  rw [hc]
  simp only [piecewiseClass, hst] at hm ⊢
  unfold piecewiseTransform at hm
  rw [hser, fhTimes_panel hss hf] at hm
  obtain ⟨ho, hb⟩ := hθ
  have hlens : (seriesCoefs st.cps θ).map List.length = st.cps.map List.length :=
    List.map_splitLengths_length _ _ (by rw [hb])
  obtain ⟨r, h1, h2, h3, -⟩ := piecewisePredict_panel (n := st.time.nSeries) (θ := θ) (p := [])
    (βs := seriesCoefs st.cps θ) hm (by rw [hcps]; exact hsq) (by rw [hns]; exact hsq)
    (by
      rw [List.forall₂_iff_get]
      have hl : st.cps.length = (seriesCoefs st.cps θ).length := by
        have := congrArg List.length hlens
        simpa using this.symm
      refine ⟨hl, fun i h h' => ?_⟩
      have := congrArg (fun l => l[i]?) hlens
      simp only [List.getElem?_map, List.getElem?_eq_getElem h, List.getElem?_eq_getElem h',
        Option.map_some, Option.some.injEq] at this
      exact this.symm)
    (List.flatten_splitLengths _ _ (by rw [hb])).symm rfl ho
  exact ⟨r, h1, by rw [h2, hcps, List.length_map], h3⟩

/-- A linear effect can be computed on a panel with one coefficient per column. -/
theorem linear_panel_runs {mode : String} {n H k : Nat} {ds : List ℝ} {θ : SiteEnv ℝ}
    (hθ : (θ "coefs").data.length = k) {p : PyDict (Tensor ℝ)} {t : Tensor ℝ} (hsh : t.shape = [n, H, 1])
    (hw : t.WF) (hp : p.get? "trend" = some t) :
    ∃ v, AddMul.call ⟨mode, linearRaw⟩ θ (.data ⟨[n, H, k], ds⟩) p = .ok v ∧ v.shape = t.shape ∧ v.WF := by
  have hraw : linearRaw θ (.data ⟨[n, H, k], ds⟩) p = .ok ⟨[n, H] ++ [1],
      (List.range (size [n, H])).map fun i => dot (chunk ds k i) (θ "coefs").data⟩ := by
    simp only [linearRaw, Transformed.array, bind, Except.bind, dotLast]
    rw [show ([n, H, k] : List Nat).getLast? = some k from rfl]
    simp only [hθ, if_true]
    rfl
  unfold AddMul.call AddMul.predict basePredict
  simp only [PyDict.getItem, hp, bind, Except.bind, trendAsColumn, Option.getD_some]
  rw [if_neg (by simp [ndim, hsh])]
  simp only [hraw, reshape]
  rw [if_pos (by rw [hsh]; simp [size])]
  simp only
  by_cases hm : mode = "additive"
  · rw [if_pos hm]
    refine ⟨_, rfl, rfl, ?_⟩
    unfold WF
    simp only
    rw [hsh]
    simp [size]
  · rw [if_neg hm]
    have hw' : (⟨t.shape, (List.range (size [n, H])).map fun i =>
        dot (chunk ds k i) (θ "coefs").data⟩ : Tensor ℝ).WF := by
      unfold WF
      simp only
      rw [hsh]
      simp [size]
    rw [binop_same_eq _ hw hw' rfl]
    refine ⟨_, rfl, rfl, ?_⟩
    unfold WF at hw ⊢
    simp only [List.length_zipWith, List.length_map, List.length_range]
    rw [hw, hsh]
    simp [size]


/-! ## The forecaster -/

variable {days : τ → ℝ} {p : PiecewiseParams ℝ τ}
  {cfg : HierConfig (Option (PiecewiseState ℝ τ)) (Scale ℝ) τ (Tensor ℝ) ℝ}

/-- A hierarchical forecaster with a piecewise linear trend, linear effects, no feature transformer
and valid parameters: a positive interval and range of changepoints, regular expressions that
compile, distinct names. -/
structure ValidHier (days : τ → ℝ) (p : PiecewiseParams ℝ τ)
    (cfg : HierConfig (Option (PiecewiseState ℝ τ)) (Scale ℝ) τ (Tensor ℝ) ℝ) : Prop where
  dates : StrictMono days
  interval : ∃ i, p.interval = .scalar i ∧ 0 < i
  range : ∃ r, p.range = .scalar r ∧ 0 < r
  plain : Starts p
  trend : cfg.trend = (piecewiseClass days suggestLinear piecewisePredict p).new
  effects : ∀ e ∈ cfg.effects, ∃ mode, e.effect.cls = linearClass mode
  default : ∃ mode, cfg.default.cls = linearClass mode
  regexes : ∀ e ∈ cfg.effects, ∀ r, e.regex = some r → ∃ q, cfg.compile r = .ok q
  order : ∀ l, (cfg.order l).Perm l
  fitFeatures : cfg.fitFeatures = .ok
  features : cfg.features = .ok
  nodup : (cfg.effects.map EffectSpec.name).Nodup
  reserved : "exogenous_variables_effect" ∉ cfg.effects.map EffectSpec.name
  notTrend : "trend" ∉ cfg.effects.map EffectSpec.name

/-- The dates of the target in order of time. -/
structure DatesOf {V : Type} (y : Frame String τ V) (ts : List τ) : Prop where
  sorted : ts.Pairwise (· < ·)
  mem : ∀ t, t ∈ ts ↔ ∃ r ∈ y.rows, r.time = t

/-- What a fit leaves behind. -/
structure HierFitted (days : τ → ℝ) (p : PiecewiseParams ℝ τ) (ss : List (List String)) (ts : List τ)
    (X : Option (Frame String τ ℝ)) (m : HierFit (Option (PiecewiseState ℝ τ)) (Scale ℝ) τ (Tensor ℝ) ℝ)
    (x : Frame String τ ℝ) (s : PiecewiseState ℝ τ) : Prop where
  panel : PanelIn x ss ts
  exog : (givenCols X = [] ∧ m.expand = none ∧ x.cols = []) ∨
    ∃ X0 st, X = some X0 ∧ RegularExog X0 ss ts ∧ m.expand = some st ∧ st.skip = false ∧
      (∀ c ∈ st.matched, c ∈ X0.cols) ∧ expandTransform st X0.bottomOnly = .ok x
  cls : m.trend.cls = piecewiseClass days suggestLinear piecewisePredict p
  base : m.trend.st.1 = ⟨some x.cols, some true⟩
  state : m.trend.st.2 = some s
  series : s.series = some ss
  count : s.time.nSeries = ss.length
  changepoints : s.cps.length = ss.length
  linear : ∀ fe ∈ m.fitted, (∃ mode, fe.effect.cls = linearClass mode) ∧
    fe.effect.st.1 = ⟨some fe.cols, some true⟩ ∧ ∀ c ∈ fe.cols, c ∈ x.cols
  nodup : (m.fitted.map FittedEffect.name).Nodup
  notTrend : "trend" ∉ m.fitted.map FittedEffect.name
  objs : nonSkipped m.fitted = .ok m.objs
  trendData : m.trend.transform (some x) ts = .ok m.trendData
  data : transformEffects m.fitted x ts = .ok m.data

theorem linear_skip {e : EffectObj (Option (PiecewiseState ℝ τ)) (Frame String τ ℝ) (Scale ℝ) τ ℝ (Tensor ℝ) ℝ}
    {mode : String} (hc : e.cls = linearClass mode) {cols : List String}
    (hst : e.st.1 = ⟨some cols, some true⟩) : e.skip = .ok cols.isEmpty := by
  unfold EffectObj.skip shouldSkip
  rw [hst, hc]
  simp [linearClass, linearTags]

theorem linear_transforms
    {e : EffectObj (Option (PiecewiseState ℝ τ)) (Frame String τ ℝ) (Scale ℝ) τ ℝ (Tensor ℝ) ℝ}
    {mode : String} (hc : e.cls = linearClass mode) {cols : List String}
    (hst : e.st.1 = ⟨some cols, some true⟩) {z : Frame String τ ℝ} {fh : List τ}
    (hz : cols = [] ∨ ∃ ss, PanelIn z ss fh) :
    ∃ d, e.transform (some { z with cols := cols }) fh = .ok d := by
  unfold EffectObj.transform
  rw [baseTransform_eq _ hst, hc]
  by_cases h0 : cols = []
  · rw [if_pos (by simp [h0, linearClass, linearTags])]
    exact ⟨_, rfl⟩
  · rw [if_neg (by simp [h0]), if_pos fun c hc => hc]
    rcases hz with h | ⟨ss, hz⟩
    · exact absurd h h0
    obtain ⟨d, hd⟩ := panel_array hz h0
    refine ⟨.data d, ?_⟩
    have : ({ z.filterTimes fh with cols := cols } : Frame String τ ℝ).seriesToTensorOrArray.map
        Transformed.data = .ok (.data d) := by rw [hd]; rfl
    exact this

/-- The data of all effects can be computed from a table with the columns. -/
theorem effects_transform {l : List (FittedEffect (Option (PiecewiseState ℝ τ)) (Frame String τ ℝ)
      (Scale ℝ) τ ℝ (Tensor ℝ) ℝ)} {cols : List String}
    (hl : ∀ fe ∈ l, (∃ mode, fe.effect.cls = linearClass mode) ∧
      fe.effect.st.1 = ⟨some fe.cols, some true⟩ ∧ ∀ c ∈ fe.cols, c ∈ cols)
    {z : Frame String τ ℝ} {fh : List τ} (hcols : ∀ c ∈ cols, c ∈ z.cols)
    (hz : cols = [] ∨ ∃ ss, PanelIn z ss fh) : ∃ data, transformEffects l z fh = .ok data := by
  refine transformEffects_runs fun fe hfe => ?_
  obtain ⟨⟨mode, hc⟩, hst, hsub⟩ := hl fe hfe
  refine ⟨⟨_, linear_skip hc hst⟩, { z with cols := fe.cols }, ?_⟩
  obtain ⟨d, hd⟩ := linear_transforms hc hst (z := z) (fh := fh) (by
    rcases hz with h | h
    · left
      cases hf : fe.cols with
      | nil => rfl
      | cons a l =>
        have := hsub a (by rw [hf]; simp)
        rw [h] at this
        cases this
    · exact .inr h)
  exact ⟨d, if_pos fun c hc => hcols c (hsub c hc), hd⟩

theorem hier_fits (hV : ValidHier days p cfg) {y : Frame String τ ℝ} (hy : RegularPanel y)
    {ss : List (List String)} (hss : SeriesOf y ss) {ts : List τ} (hts : DatesOf y ts)
    {X : Option (Frame String τ ℝ)} (hX : GivenExog X ss ts)
    (hcomp : ∀ c ∈ givenCols X, c ∉ cfg.shared → ∃ q, cfg.compile c = .ok q) :
    ∃ m x s, hierFitData cfg y X = .ok m ∧ HierFitted days p ss ts X m x s ∧
      ∃ yB, locBottom (aggregate cfg.keep y) = .ok yB ∧ BottomPanel y yB ts ∧ yB.series = ss ∧
        yB.seriesToTensor = .ok m.yArray ∧ m.yArray.shape = [ss.length, ts.length, 1] ∧ m.yArray.WF ∧
        piecewiseFit days suggestLinear p yB = .ok s ∧ m.single = decide (ss.length = 1) ∧
        hierExog cfg (aggregate cfg.keep y) X = .ok (m.expand, x) ∧
        fitEffects cfg.compile cfg.effects cfg.default (some x) yB cfg.scale = .ok (m.fitted, m.warnings) := by
  obtain ⟨yB, ts', hloc, hyB, hB⟩ := bottom_panel cfg.keep hy
  obtain rfl : ss = yB.series := eq_of_sorted_of_mem hss.sorted hB.series.sorted fun s => by
    rw [hss.mem, hB.series.mem]
  obtain rfl : ts = ts' := eq_of_sorted_of_mem hts.sorted hB.panel.horizon fun t => by
    rw [hts.mem, ← hB.datesY, mem_unique, Frame.times, List.mem_map]
  obtain ⟨i, hi, hi0⟩ := hV.interval
  obtain ⟨r, hr, hr0⟩ := hV.range
  obtain ⟨c, hc⟩ := hy.column
  have hlvB : 2 ≤ yB.nlevels := by rw [hB.nlevels]; exact hy.levels
  -- the target as an array
  have key : ∀ s ∈ yB.series, (yB.rowsOf s).length = ts.length := by
    intro s hs
    rw [← List.length_map (f := Row.time)]
    congr 1
    have hrs := rowsOf_sorted hB.panel.sorted s
    refine eq_of_sorted_of_mem (List.pairwise_map.2 hrs) hB.panel.horizon fun t => ?_
    constructor
    · intro ht
      obtain ⟨r, hr, rfl⟩ := List.mem_map.1 ht
      rw [← hB.dates, mem_unique]
      exact List.mem_map.2 ⟨r, List.mem_of_mem_filter hr, rfl⟩
    · intro ht
      obtain ⟨r, hr, h1, h2⟩ := hB.panel.covers s hs t ht
      exact List.mem_map.2 ⟨r, List.mem_filter.2 ⟨hr, by simp [h1]⟩, h2⟩
  have hya : ∃ ya, yB.seriesToTensor = .ok ya ∧ ya.shape = [yB.series.length, ts.length, 1] ∧ ya.WF := by
    rcases seriesToTensor_panel hB.panel.panel hB.rows (by rw [hB.cols, hc]; simp) with
      ⟨T, hT, h⟩ | ⟨⟨s, hs, s', hs', hne⟩, -⟩
    · refine ⟨_, h, ?_, panel_wf hT⟩
      obtain ⟨s0, hs0⟩ := List.exists_mem_of_ne_nil _ hB.panel.someSeries
      rw [← (hT s0 hs0), key s0 hs0, hB.cols, hc]
      rfl
    · exact absurd ((key s hs).trans (key s' hs').symm) hne
  have hcount : nSeries (aggregate cfg.keep y).nlevels ((aggregate cfg.keep y).index.map Prod.fst)
      = yB.series.length := by
    unfold nSeries
    have hl : (aggregate cfg.keep y).nlevels = y.nlevels := (aggregate_wf cfg.keep hy.wf).2.1
    have hl2 := hy.levels
    rw [if_neg (by rw [hl]; omega)]
    unfold filterSeriesTuples
    rw [if_pos rfl]
    have e : (aggregate cfg.keep y).index.map Prod.fst = (aggregate cfg.keep y).rows.map Row.sid := by
      simp [Frame.index, Function.comp_def]
    rw [e, ← unique_filter, hyB]
    unfold Frame.bottomOnly Frame.series
    rw [List.filter_map]
    rfl
  have hten : ∀ y' : Frame String τ ℝ, y'.nlevels = yB.nlevels → y'.cols = yB.cols → y'.index = yB.index →
      ∃ ya, y'.seriesToTensor = .ok ya := by
    intro y' h1 h2 h3
    have hcnt : ∀ s, (y'.rowsOf s).length = (yB.rowsOf s).length := by
      intro s
      have e : ∀ f : Frame String τ ℝ, (f.rowsOf s).length = (f.index.filter fun q => q.1 = s).length := by
        intro f
        unfold Frame.rowsOf Frame.index
        rw [List.filter_map, List.length_map]
        rfl
      rw [e, e, h3]
    have hrows : y'.rows ≠ [] := by
      intro h0
      have := congrArg List.length h3
      simp only [Frame.index, List.length_map, h0, List.length_nil] at this
      exact hB.rows (List.length_eq_zero_iff.1 this.symm)
    rcases seriesToTensor_panel (f := y') (by rw [h1]; exact hB.panel.panel) hrows (by rw [h2, hB.cols, hc]; simp) with
      ⟨T, hT, h⟩ | ⟨⟨s, hs, s', hs', hne⟩, -⟩
    · exact ⟨_, h⟩
    · rw [series_congr_index h3] at hs hs'
      exact absurd (by rw [hcnt, hcnt, key s hs, key s' hs']) hne
  obtain ⟨ya, hya, hyas, hyaw⟩ := hya
  obtain ⟨ex, x, hex, hxp, hxe⟩ := hierExog_runs hV.fitFeatures hV.order hy hloc hyB hB hX hcomp
  have hxr := panelIn_rows hxp
  -- the trend
  obtain ⟨s, hpf⟩ := panel_trend_fits hV.dates hi hi0 hr hr0 hV.plain (hB.cols.trans hc) hB.panel hlvB
    hB.dates hB.two hten
  obtain ⟨g1, g2, g3⟩ := piecewise_panel_state hi hr (by omega) hpf
  have htf : cfg.trend.fit yB (some x) cfg.scale
      = .ok { cfg.trend with st := (⟨some (colsOf (some x)), some true⟩, some s) } := by
    rw [hV.trend]
    refine effect_fits rfl ?_
    show (piecewiseFit days suggestLinear p yB).map some = _
    rw [hpf]
    rfl
  have hcx : colsOf (some x) = x.cols := by
    unfold colsOf Frame.isEmpty
    simp only
    cases hq : x.cols with
    | nil => simp
    | cons a l => simp [hxr]
  rw [hcx] at htf
  set tr : EffectObj (Option (PiecewiseState ℝ τ)) (Frame String τ ℝ) (Scale ℝ) τ ℝ (Tensor ℝ) ℝ :=
    { cfg.trend with st := (⟨some x.cols, some true⟩, some s) } with htr
  have hcls : tr.cls = piecewiseClass days suggestLinear piecewisePredict p := by
    rw [htr, hV.trend]
    rfl
  have hcps : s.cps ≠ [] := by
    intro h
    rw [h] at g3
    exact hB.panel.someSeries (List.length_eq_zero_iff.1 g3.symm)
  obtain ⟨td, htd⟩ := trend_data_runs (e := tr) hcls rfl rfl hcps (x := x) (fun a ha => ha) ts
  -- the effects
  have hone : ∀ (e : EffectObj (Option (PiecewiseState ℝ τ)) (Frame String τ ℝ) (Scale ℝ) τ ℝ (Tensor ℝ) ℝ)
      (cols : List String), (∃ mode, e.cls = linearClass mode) →
      ∃ o, e.clone.fit yB (some { x with cols := cols }) cfg.scale = .ok o := by
    rintro e cols ⟨mode, he⟩
    exact ⟨_, effect_fits (s := e.clone.st.2) (by
      show e.cls.tags.supportsMultivariate = true
      rw [he]
      rfl) (by
      show e.cls.fit _ _ _ _ = _
      rw [he]
      rfl)⟩
  have hsteps : ∃ fes, List.Forall₂ (FittedFrom cfg.compile x yB cfg.scale) cfg.effects fes := by
    have : ∀ e ∈ cfg.effects, ∃ fe, FittedFrom cfg.compile x yB cfg.scale e fe := by
      intro e he
      obtain ⟨cols, hcols⟩ : ∃ cols, matchColumns cfg.compile x.cols e.regex = .ok cols := by
        unfold matchColumns
        cases hre : e.regex with
        | none => exact ⟨_, rfl⟩
        | some q =>
          obtain ⟨f, hf⟩ := hV.regexes e he q hre
          simp only [bind, Except.bind, hf]
          exact ⟨_, rfl⟩
      obtain ⟨o, ho⟩ := hone e.effect cols (hV.effects e he)
      exact ⟨⟨e.name, o, cols⟩, rfl, hcols, ho⟩
    generalize cfg.effects = l at this
    induction l with
    | nil => exact ⟨[], .nil⟩
    | cons a l ih =>
      obtain ⟨fe, hfe⟩ := this a (by simp)
      obtain ⟨fes, hfes⟩ := ih fun e he => this e (by simp [he])
      exact ⟨fe :: fes, .cons hfe hfes⟩
  obtain ⟨fes, hfes⟩ := hsteps
  have hfe : ∃ fitted ws, fitEffects cfg.compile cfg.effects cfg.default (some x) yB cfg.scale
      = .ok (fitted, ws) := by
    by_cases hrest : remainingColumns x.cols (fes.flatMap FittedEffect.cols) = []
    · exact ⟨_, _, fitEffects_ok.2 ⟨fes, hfes, rfl, .inl ⟨hrest, rfl⟩⟩⟩
    · obtain ⟨o, ho⟩ := hone cfg.default (remainingColumns x.cols (fes.flatMap FittedEffect.cols)) hV.default
      exact ⟨_, _, fitEffects_ok.2 ⟨fes, hfes, rfl, .inr ⟨o, hrest, ho, rfl⟩⟩⟩
  obtain ⟨fitted, ws, hfe⟩ := hfe
  have hall : ∀ fe ∈ fitted, (∃ mode, fe.effect.cls = linearClass mode) ∧
      fe.effect.st.1 = ⟨some fe.cols, some true⟩ ∧ ∀ c ∈ fe.cols, c ∈ x.cols := by
    obtain ⟨fes, hf, -, hcase⟩ := fitEffects_ok.1 hfe
    have h1 : ∀ fe ∈ fes, (∃ mode, fe.effect.cls = linearClass mode) ∧
        fe.effect.st.1 = ⟨some fe.cols, some true⟩ ∧ ∀ c ∈ fe.cols, c ∈ x.cols := fun fe hfe => by
      obtain ⟨e, he, hn, hm, hfit⟩ := exists_of_forall₂ hf hfe
      obtain ⟨mode, hmode⟩ := hV.effects e he
      exact ⟨⟨mode, by rw [(effectFit_ok hfit).1]; exact hmode⟩, effectFit_inputCols (by exact hxr) hfit,
        fun a ha => (matchColumns_sublist hm).subset ha⟩
    rcases hcase with ⟨-, h⟩ | ⟨eff, -, h2, h⟩
    · rw [h]; exact h1
    · rw [h]
      intro fe hfe
      rcases List.mem_append.1 hfe with h3 | h3
      · exact h1 fe h3
      · cases List.mem_singleton.1 h3
        obtain ⟨mode, hmode⟩ := hV.default
        exact ⟨⟨mode, by rw [(effectFit_ok h2).1]; exact hmode⟩, effectFit_inputCols (by exact hxr) h2,
          fun a ha => (mem_remaining.1 ha).1⟩
  have hskip : ∀ fe ∈ fitted, ∃ b, fe.effect.skip = .ok b := fun fe hfe => by
    obtain ⟨⟨mode, hc⟩, hst, -⟩ := hall fe hfe
    exact ⟨_, linear_skip hc hst⟩
  obtain ⟨data, hdata⟩ := effects_transform hall (z := x) (fh := ts) (fun c hc => hc) (.inr ⟨_, hxp⟩)
  have hobjs := nonSkipped_ok hskip
  obtain ⟨hn', htr'⟩ := C17_names hV.nodup hV.reserved hV.notTrend hfe
  refine ⟨⟨tr, ex, fitted, ws, td, data, PyDict.ofList ((kept fitted).map fun e => (e.name, e.effect)), ya, (aggregate cfg.keep y).index,
    decide (nSeries (aggregate cfg.keep y).nlevels ((aggregate cfg.keep y).index.map Prod.fst) = 1)⟩, x, s,
    ?_, ⟨hxp, hxe, hcls, rfl, rfl, g1, g2, g3, hall, hn', htr', ?_, htd, hdata⟩, yB, hloc, hB, rfl, hya, hyas, hyaw,
    hpf, by rw [← hcount], hex, hfe⟩
  · unfold hierFitData
    simp only [hloc, bind, Except.bind, hya, hex, htf, hB.datesY, htd, hfe, hdata, nonSkipped, hobjs, pure,
      Except.pure]
  · unfold nonSkipped
    rw [hobjs]
    rfl


/-- **C113**: a valid hierarchical forecaster can be fitted to every regular panel, without `X` or
with a table `X` that has a row for every series and date. -/
theorem C113_fits (hV : ValidHier days p cfg) {y : Frame String τ ℝ} (hy : RegularPanel y)
    {ss : List (List String)} (hss : SeriesOf y ss) {ts : List τ} (hts : DatesOf y ts)
    {X : Option (Frame String τ ℝ)} (hX : GivenExog X ss ts)
    (hcomp : ∀ c ∈ givenCols X, c ∉ cfg.shared → ∃ q, cfg.compile c = .ok q) :
    ∃ m, hierFitData cfg y X = .ok m := by
  obtain ⟨m, x, s, h, -⟩ := hier_fits hV hy hss hts hX hcomp
  exact ⟨m, h⟩

theorem mem_productAll {α : Type} : ∀ {ls : List (List α)} {s : List α},
    List.Forall₂ (· ∈ ·) s ls → s ∈ productAll ls
  | [], [], _ => by simp [productAll]
  | l :: ls, a :: s, h => by
    obtain ⟨h1, h2⟩ := List.forall₂_cons.1 h
    exact List.mem_flatMap.2 ⟨a, h1, List.mem_map.2 ⟨s, mem_productAll h2, rfl⟩⟩

theorem length_of_productAll {α : Type} : ∀ {ls : List (List α)} {s : List α},
    s ∈ productAll ls → s.length = ls.length
  | [], s, h => by
    simp only [productAll, List.mem_singleton] at h
    simp [h]
  | l :: ls, s, h => by
    obtain ⟨a, -, h⟩ := List.mem_flatMap.1 h
    obtain ⟨s, hs, rfl⟩ := List.mem_map.1 h
    simp [length_of_productAll hs]

/-- The labels of the index, level by level. -/
structure LevelsOf {V : Type} (y : Frame String τ V) (levels : List (List String)) : Prop where
  count : levels.length + 1 = y.nlevels
  mem : ∀ r ∈ y.rows, List.Forall₂ (· ∈ ·) r.sid levels

/-- Without `X`, some rows for the horizon can always be made. -/
theorem emptyExog_runs (keep : List String → Bool) {y : Frame String τ ℝ} (hy : RegularPanel y)
    {levels : List (List String)} (hl : LevelsOf y levels) {fh : List τ} (hne : fh ≠ []) :
    ∃ e x, emptyExog keep levels y fh = .ok e ∧ locBottom e = .ok x := by
  have hn : y.nlevels ≠ 1 := by have := hy.levels; omega
  unfold emptyExog reindexTimeSeries Frame.reindex
  rw [if_neg hn, if_pos (by exact keys_nodup hy.ordered)]
  simp only [Except.map, Except.ok.injEq]
  suffices H : ∃ x, locBottom (aggregate keep (Frame.ofMultiIndex (K := ℝ) y.nlevels
      (product (productAll levels) fh))) = .ok x by
    obtain ⟨x, hx⟩ := H
    refine ⟨_, x, rfl, ?_⟩
    rw [← hx]
    congr 3
    unfold Frame.index
    simp [Function.comp_def]
  set idx := product (productAll levels) fh with hidx
  set F : Frame String τ ℝ := Frame.ofMultiIndex y.nlevels idx with hF
  have hw : F.WF := by
    intro r hr
    obtain ⟨k, hk, rfl⟩ := List.mem_map.1 hr
    have := length_of_productAll (mem_product.1 hk).1
    show k.1.length + 1 = y.nlevels
    rw [this, hl.count]
  obtain ⟨hw', hlv, -⟩ := aggregate_wf keep hw
  obtain ⟨r0, hr0, ht⟩ := hy.bottom
  obtain ⟨t, htm⟩ := List.exists_mem_of_ne_nil _ hne
  have hmem : (⟨r0.sid, t, fun _ => 0⟩ : Row String τ ℝ) ∈ bottomRows (aggregate keep F) := by
    rw [(bottomRows_aggregate keep (f := F) hn).mem_iff]
    refine List.mem_filter.2 ⟨List.mem_map.2 ⟨(r0.sid, t), ?_, rfl⟩, by simpa using ht⟩
    exact mem_product.2 ⟨mem_productAll (hl.mem r0 hr0), htm⟩
  obtain ⟨h1, h2⟩ := List.mem_filter.1 hmem
  refine ⟨_, C52_drops_aggregates hw' (by rw [hlv]; exact hy.levels) ⟨_, h1, ?_⟩⟩
  intro h
  exact ht (List.mem_of_getLast? h)

/-- The sizes of the parameters of the mean: an offset per series, a coefficient per changepoint,
and a coefficient per column of each effect. -/
structure HierSizes (s : PiecewiseState ℝ τ)
    (m : HierFit (Option (PiecewiseState ℝ τ)) (Scale ℝ) τ (Tensor ℝ) ℝ) (θ : SiteEnv ℝ) : Prop where
  trend : PanelSites s.cps θ
  coefs : ∀ fe ∈ m.fitted, fe.cols ≠ [] → (θ (fe.name ++ "/coefs")).data.length = fe.cols.length

/-- The mean of all cells, with the statements on the way. -/
theorem hier_mean_runs {ss : List (List String)} {ts : List τ} {X : Option (Frame String τ ℝ)}
    {m : HierFit (Option (PiecewiseState ℝ τ)) (Scale ℝ) τ (Tensor ℝ) ℝ} {x : Frame String τ ℝ}
    {s : PiecewiseState ℝ τ} (h : HierFitted days p ss ts X m x s)
    (hsq : ss.length ≠ 1 ∨ p.squeeze = false) {z : Frame String τ ℝ} {fh : List τ} (hf : fh.Nodup)
    (hz : x.cols = [] ∨ PanelIn z ss fh) {td : Transformed (Tensor ℝ)}
    {data : PyDict (Transformed (Tensor ℝ))} (htd : m.trend.transform (some z) fh = .ok td)
    (hdata : transformEffects m.fitted z fh = .ok data) {θ : SiteEnv ℝ} (hθ : HierSizes s m θ)
    {tp : Priors (Transformed (Tensor ℝ))} {st0 : List Stmt} (htp : tp θ td [] = .ok st0)
    (prior : String → ℝ → ℝ) :
    ∃ r, runMean (m.trend.cls.call m.trend.st) tp td data (callsOf m.objs)
        (fun n => linearPriors (prior n)) θ = .ok r ∧ r.1.mean.shape = [ss.length, fh.length, 1] ∧
      r.1.mean.WF := by
  obtain ⟨t, h2, hsh, hw⟩ := panel_trend_runs h.cls h.state h.panel.someSeries h.series h.changepoints
    h.count hsq hf htd hθ.trend
  obtain ⟨hobj, hdat⟩ := transformEffects_get h.nodup hdata h.objs
  have hcalls : callsOf m.objs
      = (kept m.fitted).map fun fe => (fe.name, fe.effect.cls.call fe.effect.st) := by
    rw [hobj]
    simp [callsOf, Function.comp_def]
  have hsc : ∀ n, θ.scope n "coefs" = θ (n ++ "/coefs") := by
    intro n
    unfold SiteEnv.scope
    rw [String.append_assoc]
    rfl
  have htre : "trend" ∉ (callsOf m.objs).map Prod.fst := by
    rw [hcalls]
    intro hq
    obtain ⟨a, ha, hb⟩ : ∃ a ∈ kept m.fitted, a.name = "trend" := by
      simpa [Function.comp_def] using hq
    exact h.notTrend (List.mem_map.2 ⟨a, List.mem_of_mem_filter ha, hb⟩)
  rw [← hsh]
  refine runMean_succeeds htre htp h2 hw ?_
  intro e he
  rw [hcalls] at he
  obtain ⟨fe, hk, rfl⟩ := List.mem_map.1 he
  have hmem := List.mem_of_mem_filter hk
  obtain ⟨xc, d, hxc, hd, hdd⟩ := hdat fe hk
  refine ⟨d, hdd, fun q hq => ?_⟩
  obtain ⟨⟨mode, hc⟩, hst, hsub⟩ := h.linear fe hmem
  have hne : fe.cols ≠ [] := by
    intro h0
    have := (List.mem_filter.1 hk).2
    rw [linear_skip hc hst, h0] at this
    simp at this
  have hz : PanelIn z ss fh := by
    rcases hz with hz | hz
    · exfalso
      obtain ⟨a, ha⟩ := List.exists_mem_of_ne_nil _ hne
      have := hsub a ha
      rw [hz] at this
      cases this
    · exact hz
  obtain ⟨cs, d', e1, e2, rfl, e4⟩ := effect_data (by rw [hc]; rfl) hd (by
    rintro rfl
    unfold EffectObj.transform at hd
    rw [baseTransform_eq _ hst, if_neg (by simp [hne])] at hd
    split at hd
    · cases hq : fe.effect.cls.transform fe.effect.st.2 { (if fe.effect.cls.tags.filterFh then
        xc.filterTimes fh else xc) with cols := fe.cols } fh with
      | error er => rw [hq] at hd; cases hd
      | ok v => rw [hq] at hd; cases hd
    · cases hd)
  rw [hst] at e1
  cases e1
  rw [hc] at e4
  have hd' := panel_data (hz.select hxc) e2 e4
  have hco : (θ.scope fe.name "coefs").data.length = fe.cols.length := by
    rw [hsc]
    exact hθ.coefs fe hmem hne
  rw [hd']
  constructor
  · simp only [linearPriors, Transformed.array, bind, Except.bind, sampleSite]
    rw [if_pos (by simp [hco])]
    exact ⟨_, rfl⟩
  · simp only [hc]
    exact linear_panel_runs hco hsh hw hq

/-- **C113**: afterwards every horizon can be forecast: without `X` if there was none in `fit`, or
with a table that has the columns of the training table and a row for every series and date; for all
values of the parameters that have the right sizes. -/
theorem C113_forecasts (hV : ValidHier days p cfg) {y : Frame String τ ℝ} (hy : RegularPanel y)
    {ss : List (List String)} (hss : SeriesOf y ss) (hsq : ss.length ≠ 1 ∨ p.squeeze = false)
    {ts : List τ} (hts : DatesOf y ts) {X : Option (Frame String τ ℝ)} (hX : GivenExog X ss ts)
    (hcomp : ∀ c ∈ givenCols X, c ∉ cfg.shared → ∃ q, cfg.compile c = .ok q)
    {m : HierFit (Option (PiecewiseState ℝ τ)) (Scale ℝ) τ (Tensor ℝ) ℝ}
    (hfit : hierFitData cfg y X = .ok m) :
    ∃ s, m.trend.st.2 = some s ∧ s.cps.length = ss.length ∧
      ∀ (y₁ : Frame String τ ℝ) (levels : List (List String)) (X₁ : Option (Frame String τ ℝ))
        (fh : List τ), RegularPanel y₁ → LevelsOf y₁ levels → fh.Pairwise (· < ·) → fh ≠ [] →
      GivenExog X₁ ss fh → (∀ c ∈ givenCols X, c ∈ givenCols X₁) →
      ∃ td data, hierPredictData cfg m levels y₁ X₁ fh = .ok (td, data) ∧
      ∀ θ, HierSizes s m θ →
      ∃ st, computeMean (m.trend.cls.call m.trend.st) td data (callsOf m.objs) θ = .ok st ∧
        st.mean.shape = [ss.length, fh.length, 1] ∧ st.mean.WF := by
  obtain ⟨m', x, s, hfit', h, -⟩ := hier_fits hV hy hss hts hX hcomp
  rw [hfit] at hfit'
  cases hfit'
  refine ⟨s, h.state, h.changepoints, ?_⟩
  intro y₁ levels X₁ fh hy₁ hlev hinc hne hX₁ hsub
  -- the table at the horizon
  have htab : ∃ z0 z, predictExog cfg.keep levels y₁ X₁ fh = .ok z0 ∧
      predictExpand cfg.features m.expand z0 fh = .ok z ∧ (∀ c ∈ x.cols, c ∈ z.cols) ∧
      (x.cols = [] ∨ PanelIn z ss fh) := by
    by_cases h0 : givenCols X₁ = []
    · have hX0 : givenCols X = [] := List.eq_nil_iff_forall_not_mem.2 fun c hc => by
        have := hsub c hc
        rw [h0] at this
        cases this
      have hx0 : m.expand = none ∧ x.cols = [] := by
        rcases h.exog with ⟨-, h1, h2⟩ | ⟨X0, st, rfl, hr, -⟩
        · exact ⟨h1, h2⟩
        · exact absurd hX0 hr.columns
      obtain ⟨e, z, he, hz⟩ := emptyExog_runs cfg.keep hy₁ hlev hne
      refine ⟨z, z, ?_, by rw [hx0.1]; rfl, by rw [hx0.2]; simp, .inl hx0.2⟩
      unfold predictExog
      cases X₁ with
      | none => simp only [he, bind, Except.bind, hz]
      | some x1 =>
        have : x1.cols = [] := h0
        simp only [this, if_true, he, bind, Except.bind, hz]
    · rcases hX₁ with hq | ⟨X1, rfl, hr1⟩
      · exact absurd hq h0
      have hpe : predictExog cfg.keep levels y₁ (some X1) fh = .ok X1.bottomOnly := by
        unfold predictExog
        simp only [if_neg hr1.columns]
        exact exog_bottom hr1
      rcases h.exog with ⟨-, h1, h2⟩ | ⟨X0, st, rfl, hr, h1, h2, h3, h4⟩
      · exact ⟨_, X1.bottomOnly, hpe, by rw [h1]; rfl, by rw [h2]; simp, .inl h2⟩
      · have hm : ∀ c ∈ st.matched, c ∈ X1.cols := fun c hc => hsub c (h3 c hc)
        obtain ⟨z, hz⟩ := expandTransform_runs (x := X1.bottomOnly) h2 hr1.panel.panel hm
        refine ⟨_, z, hpe, ?_, ?_, .inr ?_⟩
        · rw [h1]
          unfold predictExpand
          simp only
          rw [if_pos, hV.features]
          · exact hz
          · intro t ht
            obtain ⟨s0, hs0⟩ := List.exists_mem_of_ne_nil _ hr1.panel.someSeries
            obtain ⟨r, hr, -, h5⟩ := hr1.panel.covers s0 hs0 t ht
            exact List.mem_map.2 ⟨r, hr, h5⟩
        · intro c hc
          obtain ⟨-, -, ha, -⟩ := expandTransform_ok h2 h4
          obtain ⟨-, -, hb, -⟩ := expandTransform_ok h2 hz
          rw [ha, hr.panel.series_eq] at hc
          rw [hb, hr1.panel.series_eq]
          refine ⟨hc.1, ?_⟩
          rcases hc.2 with h6 | h6
          · exact .inl (hsub c h6)
          · exact .inr h6
        · obtain ⟨b1, b2⟩ := expandTransform_index hz
          exact hr1.panel.congr b1 b2
  obtain ⟨z0, z, hz0, hz, hcols, hpz⟩ := htab
  have hcps : s.cps ≠ [] := by
    intro hq
    have := h.changepoints
    rw [hq] at this
    exact h.panel.someSeries (List.length_eq_zero_iff.1 this.symm)
  obtain ⟨td, htd⟩ := trend_data_runs h.cls h.base h.state hcps hcols fh
  obtain ⟨data, hdata⟩ := effects_transform h.linear hcols (by
    rcases hpz with hq | hq
    · exact .inl hq
    · exact .inr ⟨_, hq⟩)
  refine ⟨td, data, ?_, ?_⟩
  · unfold hierPredictData
    simp only [hz0, hz, htd, hdata, bind, Except.bind, pure, Except.pure]
  intro θ hθ
  obtain ⟨r, hr, hsh, hw⟩ := hier_mean_runs h hsq (hinc.imp ne_of_lt) hpz htd hdata hθ
    (tp := fun _ _ _ => .ok []) rfl fun _ _ => 0
  have htre : "trend" ∉ (callsOf m.objs).map Prod.fst := by
    obtain ⟨hobj, -⟩ := transformEffects_get h.nodup hdata h.objs
    rw [hobj]
    intro hq
    obtain ⟨a, ha, hb⟩ : ∃ a ∈ kept m.fitted, a.name = "trend" := by
      simpa [callsOf, Function.comp_def] using hq
    exact h.notTrend (List.mem_map.2 ⟨a, List.mem_of_mem_filter ha, hb⟩)
  obtain ⟨-, -, hcm, -⟩ := runMean_ok htre hr
  exact ⟨r.1, hcm, hsh, hw⟩

/-- **C113**: the log posterior that is maximised or sampled is defined for all parameters of the right
sizes. -/
theorem C113_density (hV : ValidHier days p cfg) {y : Frame String τ ℝ} (hy : RegularPanel y)
    {ss : List (List String)} (hss : SeriesOf y ss) (h2 : 2 ≤ ss.length) {ts : List τ} (hts : DatesOf y ts)
    (hp : p.priorScale.Fits ss.length) {X : Option (Frame String τ ℝ)} (hX : GivenExog X ss ts)
    (hcomp : ∀ c ∈ givenCols X, c ∉ cfg.shared → ∃ q, cfg.compile c = .ok q)
    {m : HierFit (Option (PiecewiseState ℝ τ)) (Scale ℝ) τ (Tensor ℝ) ℝ} (hfit : hierFitData cfg y X = .ok m) :
    ∃ s, m.trend.st.2 = some s ∧ s.cps.length = ss.length ∧
      ∀ (lkj : Nat → ℝ → Tensor ℝ → ℝ) (ns conc os : ℝ) (prior : String → ℝ → ℝ) (θ : SiteEnv ℝ),
        HierSizes s m θ → (θ "std_observation").data.length = ss.length →
        (θ "corr_matrix").shape = [ss.length, ss.length] →
        ∃ L, panelLogJoint lkj ns conc m.single m.yArray (m.trend.cls.call m.trend.st)
          (piecewisePriors os m.trend.st.2) m.trendData m.data (callsOf m.objs)
          (fun n => linearPriors (prior n)) θ = .ok L := by
  obtain ⟨m', x, s, hfit', h, yB, hloc, hB, hser, -, hsh, hw, hpf, hsing, -⟩ := hier_fits hV hy hss hts hX hcomp
  rw [hfit] at hfit'
  cases hfit'
  refine ⟨s, h.state, h.changepoints, ?_⟩
  intro lkj ns conc os prior θ hθ hσ hR
  have hlv : 2 ≤ yB.nlevels := by rw [hB.nlevels]; exact hy.levels
  have hn : nSeriesOf yB = ss.length := by
    unfold nSeriesOf
    rw [if_pos (by omega), hser]
  obtain ⟨i, hi, -⟩ := hV.interval
  obtain ⟨r, hr, -⟩ := hV.range
  obtain ⟨-, -, g3, g4⟩ := C43_fit hpf (by omega) (fun y' hy' => by
      obtain ⟨q1, -, q2⟩ := hV.plain.same hy'
      exact ⟨q1, series_congr_index q2⟩) (by rw [hi]; trivial) (by rw [hr]; trivial) (by rw [hn]; exact hp)
  have htp : ∃ st0, piecewisePriors os m.trend.st.2 θ m.trendData [] = .ok st0 := by
    rw [h.state]
    have e1 := hθ.trend.1
    have e2 := hθ.trend.2
    simp only [piecewisePriors, sampleSite, bind, Except.bind]
    rw [if_pos (by rw [e1, List.length_map, g3, hn, h.changepoints])]
    simp only
    rw [if_pos (by rw [e2, List.length_zipWith, g4.loc, g4.scale, min_self])]
    exact ⟨_, rfl⟩
  obtain ⟨st0, htp⟩ := htp
  obtain ⟨q, hq, hqs, hqw⟩ := hier_mean_runs h (.inl (by omega)) (h.panel.horizon.imp ne_of_lt) (.inr h.panel)
    h.trendData h.data hθ htp prior
  obtain ⟨obs, loc, hol, hos, -⟩ := C68_panel hsh hw hqs hqw
  have hs1 : m.single = false := by
    rw [hsing]
    simp
    omega
  unfold panelLogJoint
  simp only [hq, bind, Except.bind]
  rw [hs1]
  unfold panelObsLog
  simp only [hol, bind, Except.bind, Bool.false_eq_true, if_false, hqs, List.headD_cons, sampleSite]
  rw [if_pos (by rw [hσ, List.length_replicate])]
  simp only
  rw [if_neg (by simp [hR, hos])]
  exact ⟨_, rfl⟩

end
end PV

/-! ## Examples

Two shops with three dates each, an aggregate row that is dropped, and a regressor of which each shop
gets its own coefficient. -/

namespace PV
section

noncomputable def exP113 : PiecewiseParams ℝ ℤ := ⟨.scalar 1, .scalar (4 / 5), .scalar (1 / 10), false, none⟩

noncomputable def exCfg113 : HierConfig (Option (PiecewiseState ℝ ℤ)) (Scale ℝ) ℤ (Tensor ℝ) ℝ where
  compile := fun r => .ok fun c => r == ".*" || c == r
  order := id
  keep := fun _ => true
  trend := (piecewiseClass (fun t : ℤ => (t : ℝ)) suggestLinear piecewisePredict exP113).new
  effects := [⟨"e", (linearClass "multiplicative").new, some ".*"⟩]
  default := (linearClass "additive").new
  fitFeatures := .ok
  features := .ok
  shared := []
  scale := .float 1

noncomputable def exY113 : Frame String ℤ ℝ :=
  ⟨2, ["y"], [("__total", 0, 8), ("__total", 1, 11), ("p", 0, 1), ("p", 1, 3), ("q", 0, 7), ("q", 1, 8)].map
    fun r => ⟨[r.1], r.2.1, fun _ => r.2.2⟩⟩

/-- Regressors for the dates 0 to 3. -/
noncomputable def exX113 : Frame String ℤ ℝ :=
  ⟨2, ["a"], [("p", 0, 1), ("p", 1, 2), ("p", 2, 3), ("p", 3, 5), ("q", 0, 4), ("q", 1, 1), ("q", 2, 0),
    ("q", 3, 6)].map fun r => ⟨[r.1], r.2.1, fun _ => r.2.2⟩⟩

theorem exValid113 : ValidHier (fun t : ℤ => (t : ℝ)) exP113 exCfg113 where
  dates := Int.cast_strictMono
  interval := ⟨1, rfl, one_pos⟩
  range := ⟨4 / 5, rfl, by norm_num⟩
  plain := .inl rfl
  trend := rfl
  effects := by
    intro e he
    cases List.mem_singleton.1 he
    exact ⟨"multiplicative", rfl⟩
  default := ⟨"additive", rfl⟩
  regexes := fun _ _ r _ => ⟨_, rfl⟩
  order := fun l => List.Perm.refl l
  fitFeatures := rfl
  features := rfl
  nodup := by simp [exCfg113]
  reserved := by simp [exCfg113]
  notTrend := by simp [exCfg113]

theorem exPanel113 : RegularPanel exY113 where
  wf := by
    intro r hr
    simp only [exY113, List.map_cons, List.map_nil, List.mem_cons, List.not_mem_nil, or_false] at hr
    rcases hr with rfl | rfl | rfl | rfl | rfl | rfl <;> rfl
  levels := by decide
  column := ⟨"y", rfl⟩
  ordered := by
    unfold TimeSorted exY113
    simp
  regular := by
    intro r hr r' hr'
    simp only [exY113, List.map_cons, List.map_nil, List.mem_cons, List.not_mem_nil, or_false] at hr hr'
    rcases hr with rfl | rfl | rfl | rfl | rfl | rfl <;>
      rcases hr' with rfl | rfl | rfl | rfl | rfl | rfl <;> simp [exY113]
  bottom := ⟨⟨["p"], 0, fun _ => 1⟩, by simp [exY113], by simp⟩
  twoDates := ⟨⟨["p"], 0, fun _ => 1⟩, by simp [exY113], ⟨["p"], 1, fun _ => 3⟩, by simp [exY113], by simp⟩

theorem exSeries113 : SeriesOf exY113 [["p"], ["q"]] where
  sorted := by
    refine List.pairwise_pair.2 ?_
    decide
  mem := by
    intro s
    simp only [exY113, List.map_cons, List.map_nil, List.mem_cons, List.not_mem_nil, or_false,
      exists_eq_or_imp, exists_eq_left]
    constructor
    · rintro (rfl | rfl) <;> simp
    · rintro ⟨h, h' | h' | h' | h' | h' | h'⟩ <;> subst h' <;> simp at h ⊢

theorem exDates113 : DatesOf exY113 [0, 1] where
  sorted := by simp
  mem := by
    intro t
    simp only [exY113, List.map_cons, List.map_nil, List.mem_cons, List.not_mem_nil, or_false,
      exists_eq_or_imp, exists_eq_left]
    omega

theorem exBottom113 : exX113.bottomOnly = exX113 := by
  simp [Frame.bottomOnly, exX113]

theorem exSeriesX113 : exX113.series = [["p"], ["q"]] := by
  simp [Frame.series, exX113, unique]

/-- The regressors of any of the dates 0 to 3. -/
theorem exExog113 {ts : List ℤ} (h : ts.Pairwise (· < ·)) (hne : ts ≠ []) (hin : ∀ t ∈ ts, 0 ≤ t ∧ t ≤ 3) :
    GivenExog (some exX113) [["p"], ["q"]] ts := by
  refine .inr ⟨_, rfl, ⟨?_, by decide, by simp [exX113], ?_⟩⟩
  · intro r hr
    simp only [exX113, List.map_cons, List.map_nil, List.mem_cons, List.not_mem_nil, or_false] at hr
    rcases hr with rfl | rfl | rfl | rfl | rfl | rfl | rfl | rfl <;> rfl
  · rw [exBottom113, ← exSeriesX113]
    refine panel_of_sorted (by simp [exX113]) ?_ h hne (by simp [exX113]) ?_
    · have hpq : (["p"] : List String) < ["q"] := by decide
      simp only [exX113, List.map_cons, List.map_nil, List.pairwise_cons, List.mem_cons, List.not_mem_nil,
        or_false, forall_eq_or_imp, forall_eq, Prod.Lex.toLex_lt_toLex, IsEmpty.forall_iff, implies_true,
        List.Pairwise.nil, and_true]
      simp [hpq]
    · rw [exSeriesX113]
      intro s hs t ht
      obtain ⟨h0, h3⟩ := hin t ht
      obtain rfl | rfl | rfl | rfl : t = 0 ∨ t = 1 ∨ t = 2 ∨ t = 3 := by omega
      all_goals
        simp only [List.mem_cons, List.not_mem_nil, or_false] at hs
        rcases hs with rfl | rfl <;> simp [exX113]

/-- The model can be fitted, and forecasts of the dates 2 and 3 are defined. -/
example : ∃ m s, hierFitData exCfg113 exY113 (some exX113) = .ok m ∧ m.trend.st.2 = some s ∧
    ∃ td data, hierPredictData exCfg113 m [["__total", "p", "q"]] exY113 (some exX113) [2, 3] = .ok (td, data) ∧
      ∀ θ, HierSizes s m θ → ∃ st,
        computeMean (m.trend.cls.call m.trend.st) td data (callsOf m.objs) θ = .ok st ∧
          st.mean.shape = [2, 2, 1] := by
  have hX := exExog113 (ts := [0, 1]) (by simp) (by simp) (by simp)
  have hc : ∀ c ∈ givenCols (some exX113), c ∉ exCfg113.shared → ∃ q, exCfg113.compile c = .ok q :=
    fun _ _ _ => ⟨_, rfl⟩
  obtain ⟨m, hm⟩ := C113_fits exValid113 exPanel113 exSeries113 exDates113 hX hc
  obtain ⟨s, hs, -, h⟩ := C113_forecasts exValid113 exPanel113 exSeries113 (.inl (by simp)) exDates113 hX hc hm
  obtain ⟨td, data, h1, h2⟩ := h exY113 [["__total", "p", "q"]] (some exX113) [2, 3] exPanel113
    ⟨rfl, by
      intro r hr
      simp only [exY113, List.map_cons, List.map_nil, List.mem_cons, List.not_mem_nil, or_false] at hr
      rcases hr with rfl | rfl | rfl | rfl | rfl | rfl <;> simp⟩ (by simp) (by simp)
    (exExog113 (by simp) (by simp) (by simp)) (fun c hc => hc)
  refine ⟨m, s, hm, hs, td, data, h1, fun θ hθ => ?_⟩
  obtain ⟨st, h3, h4, -⟩ := h2 θ hθ
  exact ⟨st, h3, h4⟩

end
end PV
