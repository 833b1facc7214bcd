import Verif.Model.Update
import Verif.Props.Horizon
import Verif.Props.MultiIndex

/-!
# C105: forecasts after `update`

The fitted model says something about every date.  After `update(y, update_params=False)` a forecast
should be what the fitted model says about the dates it is labelled with; steps count from the last
date seen.
-/

namespace PV
section
variable {S τ D K F κ G Θ P : Type} [Field K] [LinearOrder K] [LinearOrder τ]

/-- Specification of combining the rows seen so far with new rows: a row for every label of either,
once, with the new value where there is one. -/
structure IsCombine (combine : Frame String τ K → Frame String τ K → Frame String τ K) : Prop where
  nlevels : ∀ y n, (combine y n).nlevels = y.nlevels
  cols : ∀ y n, (combine y n).cols = y.cols
  nodup : ∀ y n, y.index.Nodup → n.index.Nodup → (combine y n).index.Nodup
  labels : ∀ y n k, k ∈ (combine y n).index ↔ k ∈ y.index ∨ k ∈ n.index
  fresh : ∀ y n, ∀ r ∈ (combine y n).rows, (r.sid, r.time) ∈ n.index → r ∈ n.rows
  kept : ∀ y n, ∀ r ∈ (combine y n).rows, (r.sid, r.time) ∉ n.index → r ∈ y.rows

/-- The level values of an index are those of its series. -/
def LevelsBySeries (o : HierOpts τ K) : Prop :=
  ∀ f g : Frame String τ K, (∀ s, s ∈ f.index.map Prod.fst ↔ s ∈ g.index.map Prod.fst) →
    o.levels f = o.levels g

/-- All observations after a list of updates. -/
def allSeen (combine : Frame String τ K → Frame String τ K → Frame String τ K)
    (y : Frame String τ K) (news : List (Frame String τ K × Option (Frame String τ K))) :
    Frame String τ K :=
  news.foldl (fun y n => combine y n.1) y

/-- All exogenous variables after a list of updates: those that were passed, combined in order. -/
def allExog (combine : Frame String τ K → Frame String τ K → Frame String τ K)
    (X : Option (Frame String τ K))
    (news : List (Frame String τ K × Option (Frame String τ K))) : Option (Frame String τ K) :=
  match X.toList ++ news.filterMap Prod.snd with
  | [] => none
  | x :: l => some (l.foldl combine x)

omit [Field K] [LinearOrder K] [LinearOrder τ] in
theorem allExog_nil (combine : Frame String τ K → Frame String τ K → Frame String τ K)
    (X : Option (Frame String τ K)) : allExog combine X [] = X := by
  cases X <;> rfl

omit [Field K] [LinearOrder K] [LinearOrder τ] in
theorem allExog_cons (combine : Frame String τ K → Frame String τ K → Frame String τ K)
    (X : Option (Frame String τ K)) (n : Frame String τ K × Option (Frame String τ K))
    (news : List (Frame String τ K × Option (Frame String τ K))) :
    allExog combine X (n :: news) = allExog combine (combineExog combine X n.2) news := by
  obtain ⟨n, nX⟩ := n
  cases X <;> cases nX <;> simp [allExog, combineExog]

omit [Field K] [LinearOrder K] [LinearOrder τ] in
theorem allExog_snoc (combine : Frame String τ K → Frame String τ K → Frame String τ K)
    (n : Frame String τ K) (nX : Option (Frame String τ K))
    (news : List (Frame String τ K × Option (Frame String τ K))) :
    ∀ X : Option (Frame String τ K), allExog combine X (news ++ [(n, nX)])
      = combineExog combine (allExog combine X news) nX := by
  induction news with
  | nil =>
    intro X
    rw [List.nil_append, allExog_cons, allExog_nil, allExog_nil]
  | cons a news ih =>
    intro X
    rw [List.cons_append, allExog_cons, ih, allExog_cons]

variable [FloorRing K]

theorem predict_eq_predictAt {H : Type} (np : Numpyro κ G (ModelArgs D K) K Θ P (Draws K))
    (horizon : List τ → H → List τ) (w : World S τ D K F κ G Θ P) (i : Nat) (q : Query K)
    (X : Option (Frame String τ K)) (fh : H) :
    w.predict np horizon i q X fh
      = w.predictAt np (fun _ p => horizon p.y.times fh) (fun _ p => horizon p.y.times fh) i q X :=
  rfl

/-- The draws of the prediction methods at given dates. -/
def World.drawsAt (np : Numpyro κ G (ModelArgs D K) K Θ P (Draws K)) (w : World S τ D K F κ G Θ P)
    (fc : Fc S τ D K κ G Θ P) (p : Prepared τ K) (X : Option (Frame String τ K)) (design : List τ) :
    PyM (Draws K) :=
  match fc.engine with
  | none => .error .attributeError
  | some eng => (predictArgs w.heap w.feats fc.cfg p X design).bind fun a => eng.draws np a

theorem predictAt_fst (np : Numpyro κ G (ModelArgs D K) K Θ P (Draws K))
    {design labels : Fc S τ D K κ G Θ P → Prepared τ K → List τ} {w : World S τ D K F κ G Θ P}
    {i : Nat} {fc : Fc S τ D K κ G Θ P} (hi : w.fcs[i]? = some fc) (hf : fc.isFitted = true)
    {p : Prepared τ K} (hp : fc.prepared = some p) (q : Query K)
    (X : Option (Frame String τ K)) :
    (w.predictAt np design labels i q X).1
      = (w.drawsAt np fc p X (design fc p)).bind fun d =>
          q.answer fc.cfg.hier (p.ctx fc.cfg) (p.y.cols.headD "") d (labels fc p) := by
  unfold World.predictAt World.drawsAt
  rw [hi]
  simp only [hf, hp, Bool.not_true, Bool.and_false, Bool.false_eq_true, if_false]
  cases he : fc.engine with
  | none => rfl
  | some eng =>
    simp only
    cases predictArgs w.heap w.feats fc.cfg p X (design fc p) with
    | error e => rfl
    | ok a =>
      have := Engine.predict_fst np eng a w.samples
      show Except.bind (eng.predict np a w.samples).1 _ = _
      rw [this]
      rfl

/-- Two targets with the same levels, columns and series. -/
structure SameShape (y y' : Frame String τ K) : Prop where
  nlevels : y'.nlevels = y.nlevels
  cols : y'.cols = y.cols
  nodup : y.index.Nodup
  nodup' : y'.index.Nodup
  series : ∀ s, s ∈ y'.index.map Prod.fst ↔ s ∈ y.index.map Prod.fst

theorem emptyExog_congr {keep : List String → Bool} {levels : List (List String)}
    {y y' : Frame String τ K} (h : SameShape y y') (fh : List τ) :
    emptyExog keep levels y' fh = emptyExog keep levels y fh := by
  unfold emptyExog reindexTimeSeries
  rw [h.nlevels]
  have key : ∀ idx, (y'.reindex idx).map (fun g =>
        aggregate keep (Frame.ofMultiIndex (K := K) y.nlevels g.index))
      = (y.reindex idx).map fun g => aggregate keep (Frame.ofMultiIndex y.nlevels g.index) := by
    intro idx
    obtain ⟨g, h1, -, -, h2, -⟩ := reindex_ok h.nodup idx
    obtain ⟨g', h1', -, -, h2', -⟩ := reindex_ok h.nodup' idx
    rw [h1, h1']
    simp only [Except.map, h2, h2']
  split <;> exact key _

/-- What the model is given does not depend on the observations after `fit`. -/
theorem predictArgs_congr {heap : List (Obj S τ D K)} {feats : List (FeatureObj F τ K)}
    {cfg : FcConfig S τ D K κ G} {p : Prepared τ K} {y' : Frame String τ K}
    (h : cfg.hier ≠ none → SameShape p.y y')
    (hl : ∀ o, cfg.hier = some o → LevelsBySeries o) (X : Option (Frame String τ K))
    (fh : List τ) :
    predictArgs heap feats cfg { p with y := y' } X fh = predictArgs heap feats cfg p X fh := by
  have : predictSeenRef feats cfg { p with y := y' } X fh = predictSeenRef feats cfg p X fh := by
    unfold predictSeenRef
    cases ho : cfg.hier with
    | none => rfl
    | some o =>
      have hs := h (by rw [ho]; simp)
      simp only
      have : predictExog o.keep (o.levels y') y' X fh = predictExog o.keep (o.levels p.y) p.y X fh := by
        unfold predictExog
        rw [hl o ho y' p.y hs.series, emptyExog_congr hs]
      rw [this]
  unfold predictArgs
  rw [this]

/-- The state after `fit` and updates without refitting. -/
structure Updated (s0 s : Session S τ D K F κ G Θ P) (i : Nat) (fc : Fc S τ D K κ G Θ P)
    (p : Prepared τ K) (seen : Frame String τ K) (exog : Option (Frame String τ K)) : Prop where
  fcs : s.world.fcs[i]? = some { fc with prepared := some { p with y := seen } }
  heap : s.world.heap = s0.world.heap
  feats : s.world.feats = s0.world.feats
  trained : s.trained = s0.trained
  exog : s.exog i = exog

omit [FloorRing K] in
theorem updates_sim (np : Numpyro κ G (ModelArgs D K) K Θ P (Draws K))
    (combine : Frame String τ K → Frame String τ K → Frame String τ K)
    {s0 : Session S τ D K F κ G Θ P} {i : Nat} {fc : Fc S τ D K κ G Θ P} {p : Prepared τ K}
    (hf : fc.isFitted = true) (news : List (Frame String τ K × Option (Frame String τ K))) :
    ∀ {s : Session S τ D K F κ G Θ P} {seen : Frame String τ K} {X : Option (Frame String τ K)},
      Updated s0 s i fc p seen X →
      Updated s0 (s.updates np combine i news) i fc p (allSeen combine seen news)
        (allExog combine X news) := by
  induction news with
  | nil =>
    intro s seen X h
    rw [allExog_nil]
    exact h
  | cons n news ih =>
    intro s seen X h
    rw [allExog_cons]
    refine ih (s := (s.update np combine i n.1 n.2 false).2) (seen := combine seen n.1)
      (X := combineExog combine X n.2) ?_
    have hlen := (List.getElem?_eq_some_iff.1 h.fcs).1
    unfold Session.update
    rw [h.fcs]
    simp only
    rw [if_neg (by simp [hf])]
    simp only [Bool.false_eq_true, if_false]
    exact ⟨List.getElem?_set_self hlen, h.heap, h.feats, h.trained,
      by simp only [if_true, h.exog]⟩

omit [FloorRing K] in
theorem fit_ok_state (np : Numpyro κ G (ModelArgs D K) K Θ P (Draws K))
    {s : Session S τ D K F κ G Θ P} {i : Nat} {fc : Fc S τ D K κ G Θ P}
    (hi : s.world.fcs[i]? = some fc) {c : Contents S τ D K F κ G}
    (hc : Resolves s.world.heap s.world.feats fc.cfg c) {y : Frame String τ K}
    {X : Option (Frame String τ K)} (hfit : (s.fit np i y X).1 = .ok ()) :
    ∃ fc' p, (s.fit np i y X).2.world.fcs[i]? = some fc' ∧ fc'.cfg = fc.cfg ∧
      fc'.isFitted = true ∧ fc'.prepared = some p ∧ p.y = y := by
  obtain ⟨h1, fc', h2, h3, h4⟩ := fit_sim np hi hc y X
  have h5 : valFit np c y X = .ok () := by rw [← h1]; exact hfit
  unfold valFit at h5
  unfold AfterFit at h4
  cases hv : valPrepare c y X with
  | error e => rw [hv] at h5; cases h5
  | ok v =>
    rw [hv] at h4 h5
    obtain ⟨p, hp, hview, -, hfit', -⟩ := h4
    simp only at h5
    refine ⟨fc', p, h2, h3, ?_, hp, hview.target⟩
    rw [hfit', h5]
    rfl

omit [FloorRing K] in
theorem allSeen_cons (combine : Frame String τ K → Frame String τ K → Frame String τ K)
    (y : Frame String τ K) (n : Frame String τ K × Option (Frame String τ K))
    (news : List (Frame String τ K × Option (Frame String τ K))) :
    allSeen combine y (n :: news) = allSeen combine (combine y n.1) news := rfl

omit [FloorRing K] in
theorem allSeen_sameShape {combine : Frame String τ K → Frame String τ K → Frame String τ K}
    (hcomb : IsCombine combine) (news : List (Frame String τ K × Option (Frame String τ K))) :
    ∀ {y : Frame String τ K}, y.index.Nodup →
      (∀ n ∈ news, n.1.index.Nodup ∧ ∀ s ∈ n.1.index.map Prod.fst, s ∈ y.index.map Prod.fst) →
      SameShape y (allSeen combine y news) := by
  induction news with
  | nil => exact fun h _ => ⟨rfl, rfl, h, h, fun _ => Iff.rfl⟩
  | cons n news ih =>
    intro y hy hn
    have h1 := hn n List.mem_cons_self
    have hs : ∀ s, s ∈ (combine y n.1).index.map Prod.fst ↔ s ∈ y.index.map Prod.fst := by
      intro s
      constructor
      · intro h
        obtain ⟨k, hk, rfl⟩ := List.mem_map.1 h
        rcases (hcomb.labels y n.1 k).1 hk with h | h
        · exact List.mem_map_of_mem h
        · exact h1.2 _ (List.mem_map_of_mem h)
      · intro h
        obtain ⟨k, hk, rfl⟩ := List.mem_map.1 h
        exact List.mem_map_of_mem ((hcomb.labels y n.1 k).2 (.inl hk))
    have := ih (y := combine y n.1) (hcomb.nodup y n.1 hy h1.1) (fun m hm =>
      ⟨(hn m (List.mem_cons_of_mem _ hm)).1, fun s hs' =>
        (hs s).2 ((hn m (List.mem_cons_of_mem _ hm)).2 s hs')⟩)
    rw [allSeen_cons]
    exact ⟨this.nlevels.trans (hcomb.nlevels y n.1), this.cols.trans (hcomb.cols y n.1), hy,
      this.nodup', fun s => (this.series s).trans (hs s)⟩

omit [FloorRing K] in
theorem allSeen_frame {combine : Frame String τ K → Frame String τ K → Frame String τ K}
    (hcomb : IsCombine combine) (news : List (Frame String τ K × Option (Frame String τ K))) :
    ∀ y : Frame String τ K, (allSeen combine y news).nlevels = y.nlevels ∧
      (allSeen combine y news).cols = y.cols := by
  induction news with
  | nil => exact fun _ => ⟨rfl, rfl⟩
  | cons n news ih =>
    intro y
    rw [allSeen_cons]
    exact ⟨(ih _).1.trans (hcomb.nlevels y n.1), (ih _).2.trans (hcomb.cols y n.1)⟩

omit [FloorRing K] in
theorem checkFh_dates {shift : τ → ℤ → τ} (hcal : IsCalendar shift) (last : τ) (ks : List ℤ) :
    (checkFh (.relative ks : Horizon τ) = .error .valueError ∧
      checkFh (.absolute (ks.map (shift last))) = .error .valueError) ∨
    ∃ ks', checkFh (.relative ks : Horizon τ) = .ok (.relative ks') ∧
      checkFh (.absolute (ks.map (shift last))) = .ok (.absolute (ks'.map (shift last))) := by
  have hinj := (hcal.mono last).injective
  by_cases h : ks = [] ∨ ¬ ks.Nodup
  · refine .inl ⟨((C80_rejected ks (ks.map (shift last))).1).2 h,
      ((C80_rejected ks (ks.map (shift last))).2.2.1).2 ?_⟩
    rcases h with rfl | h
    · exact .inl rfl
    · exact .inr fun hc => h ((List.nodup_map_iff hinj).1 hc)
  · have h0 : ks ≠ [] := fun h' => h (.inl h')
    have hd : ks.Nodup := by by_contra h'; exact h (.inr h')
    refine .inr ⟨ks.insertionSort (· ≤ ·), ?_, ?_⟩
    · simp [checkFh, checkFhValues, h0, hd, Except.map]
    · rw [← insertionSort_map (hcal.mono last)]
      simp [checkFh, checkFhValues, h0, List.nodup_map_iff hinj, hd, Except.map]

/-- Right after `fit` a session forecasts as the forecaster does in the claims about `World`. -/
theorem session_forecast (np : Numpyro κ G (ModelArgs D K) K Θ P (Draws K)) (shift : τ → ℤ → τ)
    {s : Session S τ D K F κ G Θ P} {i : Nat} {fc : Fc S τ D K κ G Θ P}
    (hi : s.world.fcs[i]? = some fc) {c : Contents S τ D K F κ G}
    (hc : Resolves s.world.heap s.world.feats fc.cfg c) {y : Frame String τ K}
    {X : Option (Frame String τ K)} (hfit : (s.fit np i y X).1 = .ok ()) (q : Query K)
    (X' : Option (Frame String τ K)) (fh : Horizon τ) :
    ((s.fit np i y X).2.forecast np shift i q X' fh).1
      = ((s.world.fit np i y X).2.forecast np shift i q X' fh).1 := by
  obtain ⟨fc', p, h1, h2, h3, h4, h5⟩ := fit_ok_state np hi hc hfit
  unfold Session.forecast World.forecast
  cases checkFh fh with
  | error e => rfl
  | ok fh =>
    simp only
    rw [predict_eq_predictAt, predictAt_fst np h1 h3 h4,
      predictAt_fst (w := (s.world.fit np i y X).2) np h1 h3 h4]
    have : (s.fit np i y X).2.designDates shift i fh fc' p = fhToIndex shift p.y.times fh := by
      unfold Session.designDates Session.fit
      simp only [if_true, h5]
      cases fc'.cfg.hier <;> rfl
    rw [this]
    rfl

/-- **C105**, dates: updates without refitting change no forecast for given dates, of any
forecaster, as long as they bring no new series. -/
theorem C105_dates (np : Numpyro κ G (ModelArgs D K) K Θ P (Draws K)) (shift : τ → ℤ → τ)
    {combine : Frame String τ K → Frame String τ K → Frame String τ K} (hcomb : IsCombine combine)
    {s : Session S τ D K F κ G Θ P} {i : Nat} {fc : Fc S τ D K κ G Θ P}
    (hi : s.world.fcs[i]? = some fc) {c : Contents S τ D K F κ G}
    (hc : Resolves s.world.heap s.world.feats fc.cfg c) {y : Frame String τ K}
    {X : Option (Frame String τ K)} (hfit : (s.fit np i y X).1 = .ok ())
    (hl : ∀ o, c.hier = some o → LevelsBySeries o) (hy : y.index.Nodup)
    {news : List (Frame String τ K × Option (Frame String τ K))}
    (hn : ∀ n ∈ news, n.1.index.Nodup ∧ ∀ s ∈ n.1.index.map Prod.fst, s ∈ y.index.map Prod.fst)
    (q : Query K) (X' : Option (Frame String τ K)) (dates : List τ) :
    (((s.fit np i y X).2.updates np combine i news).forecast np shift i q X' (.absolute dates)).1
      = ((s.world.fit np i y X).2.forecast np shift i q X' (.absolute dates)).1 := by
  rw [← session_forecast np shift hi hc hfit]
  obtain ⟨fc', p, h1, h2, h3, h4, h5⟩ := fit_ok_state np hi hc hfit
  have hu := updates_sim np combine (s0 := (s.fit np i y X).2) (i := i) (fc := fc') (p := p) h3 news
    (s := (s.fit np i y X).2) (seen := p.y) (X := X)
    ⟨by rw [h1, ← h4], rfl, rfl, rfl, by simp [Session.fit]⟩
  rw [h5] at hu
  have hss := allSeen_sameShape hcomb news hy hn
  unfold Session.forecast
  cases hfh : checkFh (.absolute dates) with
  | error e => rfl
  | ok fh =>
    have habs : ∃ ts, fh = .absolute ts := by
      cases h : checkFhValues dates with
      | error e => simp only [checkFh, h, Except.map] at hfh; cases hfh
      | ok ts =>
        simp only [checkFh, h, Except.map] at hfh
        exact ⟨ts, (Except.ok.inj hfh).symm⟩
    obtain ⟨ts, rfl⟩ := habs
    simp only
    rw [predictAt_fst np hu.fcs h3 rfl, predictAt_fst np h1 h3 h4]
    have hd : ∀ (s : Session S τ D K F κ G Θ P) fc p,
        s.designDates shift i (.absolute ts) fc p = ts := by
      intro s fc p
      unfold Session.designDates
      cases fc.cfg.hier <;> rfl
    rw [hd, hd]
    have hargs := predictArgs_congr (heap := (s.fit np i y X).2.world.heap)
      (feats := (s.fit np i y X).2.world.feats) (cfg := fc'.cfg) (p := p)
      (y' := allSeen combine y news) (fun _ => by rw [h5]; exact hss)
      (fun o ho => hl o (by rw [← hc.hier, ← h2]; exact ho)) X' ts
    unfold World.drawsAt
    rw [hu.heap, hu.feats]
    simp only [hargs]
    unfold Prepared.ctx
    simp only [hss.nlevels, hss.cols, h5, fhToIndex]

/-- **C105**, univariate forecasters: after updates without refitting, steps count from the last
date seen, and the forecast is what the fitted model says about these dates. -/
theorem C105_univariate (np : Numpyro κ G (ModelArgs D K) K Θ P (Draws K)) {shift : τ → ℤ → τ}
    (hcal : IsCalendar shift)
    {combine : Frame String τ K → Frame String τ K → Frame String τ K} (hcomb : IsCombine combine)
    {s : Session S τ D K F κ G Θ P} {i : Nat} {fc : Fc S τ D K κ G Θ P}
    (hi : s.world.fcs[i]? = some fc) {c : Contents S τ D K F κ G}
    (hc : Resolves s.world.heap s.world.feats fc.cfg c) (huni : c.hier = none)
    {y : Frame String τ K} {X : Option (Frame String τ K)} (hfit : (s.fit np i y X).1 = .ok ())
    {news : List (Frame String τ K × Option (Frame String τ K))} {last : τ}
    (hlast : LastDate (allSeen combine y news).times last)
    (q : Query K) (X' : Option (Frame String τ K)) (ks : List ℤ) :
    (((s.fit np i y X).2.updates np combine i news).forecast np shift i q X' (.relative ks)).1
      = ((s.world.fit np i y X).2.forecast np shift i q X'
          (.absolute (ks.map (shift last)))).1 := by
  rw [← session_forecast np shift hi hc hfit]
  obtain ⟨fc', p, h1, h2, h3, h4, h5⟩ := fit_ok_state np hi hc hfit
  have hu := updates_sim np combine (s0 := (s.fit np i y X).2) (i := i) (fc := fc') (p := p) h3 news
    (s := (s.fit np i y X).2) (seen := p.y) (X := X)
    ⟨by rw [h1, ← h4], rfl, rfl, rfl, by simp [Session.fit]⟩
  rw [h5] at hu
  have hfr := allSeen_frame hcomb news y
  have hnone : fc'.cfg.hier = none := by rw [h2, hc.hier, huni]
  unfold Session.forecast
  rcases checkFh_dates hcal last ks with ⟨e1, e2⟩ | ⟨ks', e1, e2⟩
  · rw [e1, e2]
  · rw [e1, e2]
    simp only
    rw [predictAt_fst np hu.fcs h3 rfl, predictAt_fst np h1 h3 h4]
    have hd1 : ((s.fit np i y X).2.updates np combine i news).designDates shift i (.relative ks')
        { fc' with prepared := some { p with y := allSeen combine y news } }
        { p with y := allSeen combine y news } = ks'.map (shift last) := by
      unfold Session.designDates
      simp only [hnone, fhToIndex, max?_eq_last hlast]
    have hd2 : (s.fit np i y X).2.designDates shift i (.absolute (ks'.map (shift last))) fc' p
        = ks'.map (shift last) := by
      unfold Session.designDates
      simp only [hnone, fhToIndex]
    rw [hd1, hd2]
    have hargs := predictArgs_congr (heap := (s.fit np i y X).2.world.heap)
      (feats := (s.fit np i y X).2.world.feats) (cfg := fc'.cfg) (p := p)
      (y' := allSeen combine y news) (fun h => absurd hnone h)
      (fun o ho => by rw [hnone] at ho; cases ho) X' (ks'.map (shift last))
    unfold World.drawsAt
    rw [hu.heap, hu.feats]
    simp only [hargs]
    unfold Prepared.ctx
    simp only [hfr, h5, fhToIndex, max?_eq_last hlast]

/-- **C105**, what `HierarchicalProphet` returns for steps after updates without refitting: the
draws are those for the dates counted from the last *training* date `last`, the labels are the dates
counted from the last date seen, `last'`. -/
theorem C105_hierarchical (np : Numpyro κ G (ModelArgs D K) K Θ P (Draws K)) {shift : τ → ℤ → τ}
    {combine : Frame String τ K → Frame String τ K → Frame String τ K} (hcomb : IsCombine combine)
    {s : Session S τ D K F κ G Θ P} {i : Nat} {fc : Fc S τ D K κ G Θ P}
    (hi : s.world.fcs[i]? = some fc) {c : Contents S τ D K F κ G}
    (hc : Resolves s.world.heap s.world.feats fc.cfg c) {o : HierOpts τ K} (ho : c.hier = some o)
    (hl : LevelsBySeries o) {y : Frame String τ K} {X : Option (Frame String τ K)}
    (hfit : (s.fit np i y X).1 = .ok ()) (hy : y.index.Nodup)
    {news : List (Frame String τ K × Option (Frame String τ K))}
    (hn : ∀ n ∈ news, n.1.index.Nodup ∧ ∀ s ∈ n.1.index.map Prod.fst, s ∈ y.index.map Prod.fst)
    {last last' : τ} (hlast : LastDate y.times last)
    (hlast' : LastDate (allSeen combine y news).times last')
    (X' : Option (Frame String τ K)) {ks ks' : List ℤ}
    (hks : checkFh (.relative ks : Horizon τ) = .ok (.relative ks')) :
    ∃ (draws : PyM (Draws K)) (ctx : Fitted K), ctx.yNlevels = y.nlevels ∧ ∀ q : Query K,
      ((s.world.fit np i y X).2.forecast np shift i q X' (.relative ks)).1
        = draws.bind (fun d => q.answer (some o) ctx (y.cols.headD "") d (ks'.map (shift last))) ∧
      (((s.fit np i y X).2.updates np combine i news).forecast np shift i q X' (.relative ks)).1
        = draws.bind
            (fun d => q.answer (some o) ctx (y.cols.headD "") d (ks'.map (shift last'))) := by
  obtain ⟨fc', p, h1, h2, h3, h4, h5⟩ := fit_ok_state np hi hc hfit
  have hu := updates_sim np combine (s0 := (s.fit np i y X).2) (i := i) (fc := fc') (p := p) h3 news
    (s := (s.fit np i y X).2) (seen := p.y) (X := X)
    ⟨by rw [h1, ← h4], rfl, rfl, rfl, by simp [Session.fit]⟩
  rw [h5] at hu
  have hss := allSeen_sameShape hcomb news hy hn
  have hsome : fc'.cfg.hier = some o := by rw [h2, hc.hier, ho]
  refine ⟨(s.fit np i y X).2.world.drawsAt np fc' p X' (ks'.map (shift last)), p.ctx fc'.cfg,
    by rw [← h5]; rfl, fun q => ⟨?_, ?_⟩⟩
  · rw [← session_forecast np shift hi hc hfit]
    unfold Session.forecast
    rw [hks]
    simp only
    rw [predictAt_fst np h1 h3 h4]
    have hd : (s.fit np i y X).2.designDates shift i (.relative ks') fc' p
        = ks'.map (shift last) := by
      unfold Session.designDates Session.fit
      simp only [hsome, if_true, fhToIndex, max?_eq_last hlast]
    rw [hd, hsome]
    simp only [h5, fhToIndex, max?_eq_last hlast]
  · unfold Session.forecast
    rw [hks]
    simp only
    rw [predictAt_fst np hu.fcs h3 rfl]
    have hd : ((s.fit np i y X).2.updates np combine i news).designDates shift i (.relative ks')
        { fc' with prepared := some { p with y := allSeen combine y news } }
        { p with y := allSeen combine y news } = ks'.map (shift last) := by
      unfold Session.designDates
      rw [hu.trained]
      unfold Session.fit
      simp only [hsome, if_true, fhToIndex, max?_eq_last hlast]
    rw [hd]
    have hargs := predictArgs_congr (heap := (s.fit np i y X).2.world.heap)
      (feats := (s.fit np i y X).2.world.feats) (cfg := fc'.cfg) (p := p)
      (y' := allSeen combine y news) (fun _ => by rw [h5]; exact hss)
      (fun o' ho' => by rw [hsome] at ho'; cases ho'; exact hl) X' (ks'.map (shift last))
    unfold World.drawsAt
    rw [hu.heap, hu.feats]
    simp only [hargs]
    unfold Prepared.ctx
    simp only [hss.nlevels, hss.cols, h5, hsome, fhToIndex, max?_eq_last hlast']

/-- **C105**, `HierarchicalProphet`: if the updates only revise values, without a later date, steps
count from the last date seen.  (In general this is false: `C105_refuted`.) -/
theorem C105_hierarchical_partial (np : Numpyro κ G (ModelArgs D K) K Θ P (Draws K))
    {shift : τ → ℤ → τ} (hcal : IsCalendar shift)
    {combine : Frame String τ K → Frame String τ K → Frame String τ K} (hcomb : IsCombine combine)
    {s : Session S τ D K F κ G Θ P} {i : Nat} {fc : Fc S τ D K κ G Θ P}
    (hi : s.world.fcs[i]? = some fc) {c : Contents S τ D K F κ G}
    (hc : Resolves s.world.heap s.world.feats fc.cfg c) {o : HierOpts τ K} (ho : c.hier = some o)
    (hl : LevelsBySeries o) {y : Frame String τ K} {X : Option (Frame String τ K)}
    (hfit : (s.fit np i y X).1 = .ok ()) (hy : y.index.Nodup)
    {news : List (Frame String τ K × Option (Frame String τ K))}
    (hn : ∀ n ∈ news, n.1.index.Nodup ∧ ∀ s ∈ n.1.index.map Prod.fst, s ∈ y.index.map Prod.fst)
    {last : τ} (hlast : LastDate y.times last)
    (hlast' : LastDate (allSeen combine y news).times last) (q : Query K)
    (X' : Option (Frame String τ K)) (ks : List ℤ) :
    (((s.fit np i y X).2.updates np combine i news).forecast np shift i q X' (.relative ks)).1
      = ((s.world.fit np i y X).2.forecast np shift i q X'
          (.absolute (ks.map (shift last)))).1 := by
  rw [← C80_steps_are_dates np hcal hi hc X hlast q X' ks]
  rcases checkFh_dates hcal last ks with ⟨e1, -⟩ | ⟨ks', e1, -⟩
  · unfold Session.forecast World.forecast
    rw [e1]
  · obtain ⟨d, ctx, -, h⟩ := C105_hierarchical np hcomb hi hc ho hl hfit hy hn hlast hlast' X' e1
    rw [(h q).1, (h q).2]

/-- **C105**, refitting: after `fit` and any updates without refitting, `update(y, X)` with
refitting has the outcome, and the forecasts after it are, as for a forecaster freshly constructed
and fitted on all data. -/
theorem C105_refit (np : Numpyro κ G (ModelArgs D K) K Θ P (Draws K)) (shift : τ → ℤ → τ)
    (combine : Frame String τ K → Frame String τ K → Frame String τ K)
    {s : Session S τ D K F κ G Θ P} {i : Nat} {fc : Fc S τ D K κ G Θ P}
    (hi : s.world.fcs[i]? = some fc) {c : Contents S τ D K F κ G}
    (hc : HasContents s.world.heap s.world.feats fc.cfg c) {y : Frame String τ K}
    {X : Option (Frame String τ K)} (hfit : (s.fit np i y X).1 = .ok ())
    (news : List (Frame String τ K × Option (Frame String τ K))) (n : Frame String τ K)
    (nX : Option (Frame String τ K)) :
    let old := ((s.fit np i y X).2.updates np combine i news).update np combine i n nX true
    let fresh := (s.world.step np (fhToIndex shift) (.new fc.cfg)).fit np s.world.fcs.length
      (allSeen combine y (news ++ [(n, nX)])) (allExog combine X (news ++ [(n, nX)]))
    old.1 = fresh.1 ∧ (fresh.1 = .ok () → ∀ q X' fh,
      (old.2.forecast np shift i q X' fh).1
        = (fresh.2.forecast np shift s.world.fcs.length q X' fh).1) := by
  intro old fresh
  obtain ⟨fc', p, h1, h2, h3, h4, h5⟩ := fit_ok_state np hi hc.resolves hfit
  have hstart : Updated (s.fit np i y X).2 (s.fit np i y X).2 i fc' p y X :=
    ⟨by rw [h1, ← h5, ← h4], rfl, rfl, rfl, by simp [Session.fit]⟩
  have hu := updates_sim np combine (s0 := (s.fit np i y X).2) h3 news hstart
  -- the state in which `update` fits
  obtain ⟨s', hs⟩ : ∃ s', s' = (s.fit np i y X).2.updates np combine i (news ++ [(n, nX)]) :=
    ⟨_, rfl⟩
  have hu' := updates_sim np combine (s0 := (s.fit np i y X).2) h3 (news ++ [(n, nX)]) hstart
  rw [← hs] at hu'
  have hold : old = s'.fit np i (allSeen combine y (news ++ [(n, nX)]))
      (allExog combine X (news ++ [(n, nX)])) := by
    have hy : allSeen combine y (news ++ [(n, nX)]) = combine (allSeen combine y news) n := by
      simp [allSeen]
    have hX : allExog combine X (news ++ [(n, nX)])
        = combineExog combine (allExog combine X news) nX := by
      exact allExog_snoc combine n nX news X
    have hs' : s' = (((s.fit np i y X).2.updates np combine i news).update np combine i n nX
        false).2 := by
      rw [hs]
      simp [Session.updates]
    rw [hy, hX, hs']
    show Session.update _ _ _ _ _ _ _ = _
    unfold Session.update
    rw [hu.fcs]
    simp only
    have hnot : ¬ (!fc'.isFitted) = true := by simp [h3]
    rw [if_neg hnot, if_neg hnot]
    simp only [if_true, hu.exog, Bool.false_eq_true, if_false]
  obtain ⟨fc'', hs1, hcfg⟩ : ∃ fc'', s'.world.fcs[i]? = some fc'' ∧ fc''.cfg = fc.cfg :=
    ⟨_, hu'.fcs, h2⟩
  have hs2 := hu'.heap
  have hs3 := hu'.feats
  have hc' : HasContents s'.world.heap s'.world.feats fc''.cfg c := by
    rw [hs2, hs3, hcfg]
    exact hc.step np (fhToIndex shift) (.fit i y X)
  have hnew : (s.world.step np (fhToIndex shift) (.new fc.cfg)).fcs[s.world.fcs.length]?
      = some ⟨fc.cfg, none, none, none, false⟩ := by
    simp [World.step]
  obtain ⟨e1, e2⟩ := C65_reproducible np (fhToIndex shift) hs1 hnew hc'.resolves
    (hc.step np (fhToIndex shift) (.new fc.cfg)).resolves
    (allSeen combine y (news ++ [(n, nX)])) (allExog combine X (news ++ [(n, nX)]))
  have ho1 : old.1 = fresh.1 := by rw [hold]; exact e1
  refine ⟨ho1, fun hok q X' fh => ?_⟩
  rw [hold] at ho1 ⊢
  rw [session_forecast np shift hs1 hc'.resolves (ho1.trans hok)]
  unfold World.forecast
  cases checkFh fh with
  | error e => rfl
  | ok fh => exact e2 q X' fh

end

/-! ## Concrete cases -/

/-- New rows after the old ones that they do not replace. -/
def exCombine (y n : Frame String ℤ ℚ) : Frame String ℤ ℚ :=
  { y with rows := (y.rows.filter fun r => decide ((r.sid, r.time) ∉ n.index)) ++ n.rows }

theorem exCombine_isCombine : IsCombine exCombine := by
  refine ⟨fun _ _ => rfl, fun _ _ => rfl, ?_, ?_, ?_, ?_⟩
  · intro y n hy hn
    unfold exCombine Frame.index
    rw [List.map_append, List.nodup_append]
    refine ⟨(List.filter_sublist.map _).nodup hy, hn, ?_⟩
    intro a ha b hb hab
    obtain ⟨r, hr, rfl⟩ := List.mem_map.1 ha
    have := (List.mem_filter.1 hr).2
    simp only [decide_eq_true_eq] at this
    exact this (hab ▸ hb)
  · intro y n k
    unfold exCombine
    simp only [Frame.index, List.map_append, List.mem_append, List.mem_map, List.mem_filter,
      decide_eq_true_eq]
    constructor
    · rintro (⟨r, ⟨h1, -⟩, h2⟩ | h)
      · exact .inl ⟨r, h1, h2⟩
      · exact .inr h
    · rintro (⟨r, h1, h2⟩ | h)
      · by_cases hk : ∃ a ∈ n.rows, (a.sid, a.time) = k
        · exact .inr hk
        · exact .inl ⟨r, ⟨h1, by rw [h2]; exact hk⟩, h2⟩
      · exact .inr h
  · intro y n r hr hk
    rcases List.mem_append.1 hr with h | h
    · have := (List.mem_filter.1 h).2
      simp only [decide_eq_true_eq] at this
      exact absurd hk this
    · exact h
  · intro y n r hr hk
    rcases List.mem_append.1 hr with h | h
    · exact (List.mem_filter.1 h).1
    · exact absurd (List.mem_map_of_mem (f := fun r : Row String ℤ ℚ => (r.sid, r.time)) h) hk

def exSession (ops : List ExOp) :
    Session ExState ℤ (Tensor ℚ) ℚ ℚ Nat Unit Unit Unit :=
  ⟨exWorld.run exNumpyro exHorizon ops, fun _ => [], fun _ => none⟩

/-- The samples of a hierarchical forecast as a table. -/
def exTableH (r : PyM (Answer ℤ ℚ)) : Option (List (List String × ℤ × ℚ)) :=
  match r with
  | .ok (.samples f) => some (f.rows.map fun r => (r.sid, r.time, r.val 0))
  | _ => none

/-- A univariate and a hierarchical forecaster, each with its own trend. -/
def exPair105 : Session ExState ℤ (Tensor ℚ) ℚ ℚ Nat Unit Unit Unit :=
  exSession [.new (exConfigW (.named exTrendObj) none), .new (exConfigH (.named exTrendObj))]

/-- Three days of news for the two series of the panel. -/
def exNews : Frame String ℤ ℚ :=
  ⟨2, ["y"], [⟨["a"], 2, fun _ => 3⟩, ⟨["a"], 3, fun _ => 3⟩, ⟨["a"], 4, fun _ => 3⟩,
    ⟨["b"], 2, fun _ => 5⟩, ⟨["b"], 3, fun _ => 5⟩, ⟨["b"], 4, fun _ => 5⟩]⟩

/-- `HierarchicalProphet` fitted on days 0 and 1. -/
def exHierFitted : Session ExState ℤ (Tensor ℚ) ℚ ℚ Nat Unit Unit Unit :=
  (exPair105.fit exNumpyro 1 (exPanelW 3 5) none).2

/-- **C105 is false for `HierarchicalProphet`.**  Fitted on days 0 and 1 and updated with days 2 to
4, the forecast for step 1 is labelled day 5 but has the numbers of day 2; the fitted model says
something else about day 5. -/
theorem C105_refuted :
    exTableH ((exHierFitted.updates exNumpyro exCombine 1 [(exNews, none)]).forecast exNumpyro
        (fun t k => t + k) 1 .samples none (.relative [1])).1
      = some [(["__total"], 5, 169), (["a"], 5, 39), (["b"], 5, 130)] ∧
    exTableH (exHierFitted.forecast exNumpyro
        (fun t k => t + k) 1 .samples none (.absolute [2])).1
      = some [(["__total"], 2, 169), (["a"], 2, 39), (["b"], 2, 130)] ∧
    exTableH (exHierFitted.forecast exNumpyro
        (fun t k => t + k) 1 .samples none (.absolute [5])).1
      = some [(["__total"], 5, 208), (["a"], 5, 48), (["b"], 5, 160)] := by
  decide +kernel

/-- The hypotheses of `C105_dates`, `C105_hierarchical` and `C105_hierarchical_partial` hold in this
case, the last one with news that revise day 1. -/
example : LevelsBySeries exHierOpts ∧ (exPanelW 3 5).index.Nodup ∧ exNews.index.Nodup ∧
    (∀ s ∈ exNews.index.map Prod.fst, s ∈ (exPanelW 3 5).index.map Prod.fst) ∧
    LastDate (exPanelW 3 5).times 1 ∧
    LastDate (allSeen exCombine (exPanelW 3 5) [(exNews, none)]).times 4 ∧
    LastDate (allSeen exCombine (exPanelW 3 5) [(exPanelW 8 9, none)]).times 1 ∧
    (exPair105.fit exNumpyro 1 (exPanelW 3 5) none).1.isOk = true :=
  ⟨fun _ _ _ => rfl, by decide +kernel, by decide +kernel, by decide +kernel,
    ⟨by decide +kernel, by decide +kernel⟩, ⟨by decide +kernel, by decide +kernel⟩,
    ⟨by decide +kernel, by decide +kernel⟩, by decide +kernel⟩

/-- A univariate forecaster fitted on days 0 to 3 and updated with days 4 and 5 forecasts day 6 for
step 1, with the numbers for day 6. -/
example :
    exTable ((((exPair105.fit exNumpyro 0 (exTarget [0, 1, 2, 3]) none).2.updates exNumpyro exCombine 0
        [(exTarget [4, 5], none)]).forecast exNumpyro (fun t k => t + k) 0 .samples none
        (.relative [1])).1)
      = exTable (((exPair105.fit exNumpyro 0 (exTarget [0, 1, 2, 3]) none).2.forecast exNumpyro
        (fun t k => t + k) 0 .samples none (.absolute [6])).1) ∧
    (exTable (((exPair105.fit exNumpyro 0 (exTarget [0, 1, 2, 3]) none).2.forecast exNumpyro
        (fun t k => t + k) 0 .samples none (.absolute [6])).1)).isSome = true := by
  decide +kernel

end PV
